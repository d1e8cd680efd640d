import Verif.CL.Builders
import Verif.Props.CLJsonForm
/-!
# Builders of schemas, values and proof requests (C174, C175), and objects that are stored in between (C173)
-/
set_option linter.unusedSectionVars false
set_option linter.unusedSimpArgs false
set_option linter.unusedVariables false

namespace Verif.CL

open Verif BN Json

/-! ## Sorted lists without repetitions -/

section Sorted
variable {α κ : Type} [LinearOrder κ] (key : α → κ)

/-- The keys are in increasing order. -/
def Sorted (l : List α) : Prop := l.Pairwise (fun a b => key a < key b)

theorem mem_bInsert_imp (x z : α) (l : List α) (h : z ∈ bInsert key x l) : z = x ∨ z ∈ l := by
  induction l with
  | nil => simpa [bInsert] using h
  | cons y l ih =>
    simp only [bInsert] at h
    split_ifs at h <;> simp only [List.mem_cons] at h ⊢
    · exact h
    · tauto
    · rcases h with h | h
      · tauto
      · rcases ih h with h | h <;> tauto

theorem sorted_bInsert (x : α) (l : List α) (h : Sorted key l) : Sorted key (bInsert key x l) := by
  induction l with
  | nil => simp [bInsert, Sorted]
  | cons y l ih =>
    obtain ⟨h1, h2⟩ := List.pairwise_cons.mp h
    simp only [bInsert]
    split_ifs with hlt heq
    · refine List.pairwise_cons.mpr ⟨fun z hz => ?_, h⟩
      rcases List.mem_cons.mp hz with rfl | hz
      · exact hlt
      · exact lt_trans hlt (h1 z hz)
    · exact List.pairwise_cons.mpr ⟨fun z hz => heq ▸ h1 z hz, h2⟩
    · refine List.pairwise_cons.mpr ⟨fun z hz => ?_, ih h2⟩
      rcases mem_bInsert_imp key x z l hz with rfl | hz
      · exact lt_of_le_of_ne (not_lt.mp hlt) (Ne.symm heq)
      · exact h1 z hz

theorem mem_bInsert (x z : α) (l : List α) (h : Sorted key l) :
    z ∈ bInsert key x l ↔ z = x ∨ (z ∈ l ∧ key z ≠ key x) := by
  induction l with
  | nil => simp [bInsert]
  | cons y l ih =>
    obtain ⟨h1, h2⟩ := List.pairwise_cons.mp h
    have ih := ih h2
    simp only [bInsert]
    split_ifs with hlt heq
    · have : ∀ w ∈ y :: l, key w ≠ key x := by
        intro w hw
        rcases List.mem_cons.mp hw with rfl | hw
        · exact hlt.ne'
        · exact (lt_trans hlt (h1 w hw)).ne'
      simp only [List.mem_cons] at this ⊢
      constructor
      · rintro (h | h | h)
        · exact .inl h
        · exact .inr ⟨.inl h, this z (.inl h)⟩
        · exact .inr ⟨.inr h, this z (.inr h)⟩
      · tauto
    · have : ∀ w ∈ l, key w ≠ key x := fun w hw => heq ▸ (h1 w hw).ne'
      simp only [List.mem_cons]
      constructor
      · rintro (h | h)
        · exact .inl h
        · exact .inr ⟨.inr h, this z h⟩
      · rintro (h | ⟨rfl | h, hk⟩)
        · exact .inl h
        · exact absurd heq.symm hk
        · exact .inr h
    · simp only [List.mem_cons, ih]
      constructor
      · rintro (rfl | rfl | ⟨h, hk⟩)
        · exact .inr ⟨.inl rfl, Ne.symm heq⟩
        · exact .inl rfl
        · exact .inr ⟨.inr h, hk⟩
      · tauto

theorem sorted_ext (l l' : List α) (h : Sorted key l) (h' : Sorted key l') (hm : ∀ z, z ∈ l ↔ z ∈ l') : l = l' := by
  have hn : ∀ l : List α, Sorted key l → l.Nodup := fun l h => List.Pairwise.imp (fun hab hE => by subst hE; exact lt_irrefl _ hab) h
  have hp : l.Perm l' := (List.perm_ext_iff_of_nodup (hn l h) (hn l' h')).mpr hm
  exact hp.eq_of_pairwise (fun a b _ _ hab hba => absurd hab (lt_asymm hba)) h h'

end Sorted

/-! ## Schemas -/

theorem schema_foldl (calls : List String) (acc : List String) (h : Sorted id acc) :
    Sorted id (calls.foldl SchemaBuilder.addAttr acc) ∧
    ∀ a, a ∈ calls.foldl SchemaBuilder.addAttr acc ↔ a ∈ calls ∨ a ∈ acc := by
  induction calls generalizing acc with
  | nil => exact ⟨h, fun a => by simp⟩
  | cons c calls ih =>
    obtain ⟨h1, h2⟩ := ih _ (sorted_bInsert id c acc h)
    refine ⟨h1, fun a => ?_⟩
    rw [List.foldl_cons, show SchemaBuilder.addAttr acc c = bInsert id c acc from rfl, h2, mem_bInsert id _ _ _ h]
    simp only [List.mem_cons, id]
    constructor
    · tauto
    · rintro ((rfl | h) | h)
      · tauto
      · tauto
      · by_cases hc : a = c <;> tauto

/-- **C174** A schema has exactly the attributes that were added, once each and in order. -/
theorem schema_builder (calls : List String) :
    Increasing (SchemaBuilder.build calls) ∧ ∀ a, a ∈ SchemaBuilder.build calls ↔ a ∈ calls := by
  obtain ⟨h1, h2⟩ := schema_foldl calls [] (by simp [Sorted])
  exact ⟨h1, fun a => by simpa [SchemaBuilder.build] using h2 a⟩

/-- **C174** The order and the number of calls do not matter. -/
theorem schema_order (calls calls' : List String) (h : ∀ a, a ∈ calls ↔ a ∈ calls') :
    SchemaBuilder.build calls = SchemaBuilder.build calls' := by
  obtain ⟨h1, h2⟩ := schema_builder calls
  obtain ⟨h1', h2'⟩ := schema_builder calls'
  exact sorted_ext id _ _ h1 h1' (fun a => by rw [h2, h2', h])

/-! ## Values -/

/-- The call succeeds and sets its attribute to this value: the number given, or the number denoted by the text. -/
def ValuesCall.Sets (b : Build) (c : ValuesCall) (attr : String) (v : CredentialValue) : Prop :=
  match c with
  | .known a x => a = attr ∧ v = .known x
  | .hidden a x => a = attr ∧ v = .hidden x
  | .commitment a x y => a = attr ∧ v = .commitment x y
  | .decKnown a s => a = attr ∧ ∃ x, fromDecOf b s = .ok x ∧ v = .known x
  | .decHidden a s => a = attr ∧ ∃ x, fromDecOf b s = .ok x ∧ v = .hidden x
  | .decCommitment a s t => a = attr ∧ ∃ x y, fromDecOf b s = .ok x ∧ fromDecOf b t = .ok y ∧ v = .commitment x y

/-- `v` is what the last successful call for the attribute sets. -/
def LastSets (b : Build) (calls : List ValuesCall) (attr : String) (v : CredentialValue) : Prop :=
  ∃ l c l', calls = l ++ c :: l' ∧ c.Sets b attr v ∧ ∀ c' ∈ l', ∀ w, ¬ c'.Sets b attr w

theorem sets_iff (b : Build) (c : ValuesCall) (attr : String) (v : CredentialValue) :
    c.Sets b attr v ↔ c.attr = attr ∧ c.arg b = .ok v := by
  cases c with
  | known a x => simp [ValuesCall.Sets, ValuesCall.attr, ValuesCall.arg, eq_comm]
  | hidden a x => simp [ValuesCall.Sets, ValuesCall.attr, ValuesCall.arg, eq_comm]
  | commitment a x y => simp [ValuesCall.Sets, ValuesCall.attr, ValuesCall.arg, eq_comm]
  | decKnown a s =>
    simp only [ValuesCall.Sets, ValuesCall.attr, ValuesCall.arg, Res.bind_eq_ok, Res.pure_eq, Res.ok.injEq]
    simp only [eq_comm]
  | decHidden a s =>
    simp only [ValuesCall.Sets, ValuesCall.attr, ValuesCall.arg, Res.bind_eq_ok, Res.pure_eq, Res.ok.injEq]
    simp only [eq_comm]
  | decCommitment a s t =>
    simp only [ValuesCall.Sets, ValuesCall.attr, ValuesCall.arg, Res.bind_eq_ok, Res.pure_eq, Res.ok.injEq]
    constructor
    · rintro ⟨h, x, y, hx, hy, rfl⟩; exact ⟨h, x, hx, y, hy, rfl⟩
    · rintro ⟨h, x, hx, y, hy, rfl⟩; exact ⟨h, x, y, hx, hy, rfl⟩

/-- **C174** A call returns success if and only if it sets a value, and a call that fails leaves the builder as it was. -/
theorem values_call (b : Build) (m : Map CredentialValue) (c : ValuesCall) :
    ((ValuesBuilder.call b m c).1 = .ok () ↔ ∃ v, c.Sets b c.attr v) ∧
    ((ValuesBuilder.call b m c).1 ≠ .ok () → (ValuesBuilder.call b m c).2 = m) := by
  unfold ValuesBuilder.call
  simp only [sets_iff, true_and]
  cases h : c.arg b <;> simp

theorem values_sorted (b : Build) (calls : List ValuesCall) (acc : Map CredentialValue) (h : Sorted Prod.fst acc) :
    Sorted Prod.fst (calls.foldl (fun m c => (ValuesBuilder.call b m c).2) acc) := by
  induction calls generalizing acc with
  | nil => exact h
  | cons c calls ih =>
    apply ih
    simp only [ValuesBuilder.call]
    split
    · exact sorted_bInsert _ _ _ h
    · exact h
    · exact h

theorem sets_unique (b : Build) (c : ValuesCall) (a : String) (v w : CredentialValue) (h : c.Sets b a v) (h' : c.Sets b a w) :
    v = w := by
  rw [sets_iff] at h h'
  have := h.2.symm.trans h'.2
  injection this

/-- **C174** The values have, for every attribute, what the last successful call for it has set, and nothing for an
attribute without one; the names are in increasing order (so they do not repeat). -/
theorem values_builder (b : Build) (calls : List ValuesCall) :
    Increasing ((ValuesBuilder.build b calls).map Prod.fst) ∧
    ∀ a v, (a, v) ∈ ValuesBuilder.build b calls ↔ LastSets b calls a v := by
  have hs : ∀ calls, Sorted Prod.fst (ValuesBuilder.build b calls) := fun calls => values_sorted b calls [] (by simp [Sorted])
  refine ⟨by simpa [Increasing, List.pairwise_map, Sorted] using hs calls, ?_⟩
  induction calls using List.reverseRecOn with
  | nil => intro a v; simp [ValuesBuilder.build, LastSets]
  | append_singleton calls c ih =>
    intro a v
    have hlast : LastSets b (calls ++ [c]) a v ↔ c.Sets b a v ∨ ((∀ w, ¬ c.Sets b a w) ∧ LastSets b calls a v) := by
      constructor
      · rintro ⟨l, c', l', he, hc, hl⟩
        rcases List.eq_nil_or_concat l' with rfl | ⟨l'', d, rfl⟩
        · obtain ⟨rfl, h⟩ := List.append_inj' he rfl
          injection h with h
          subst h
          exact .inl hc
        · rw [List.concat_eq_append, ← List.cons_append, ← List.append_assoc] at he
          obtain ⟨rfl, h⟩ := List.append_inj' he rfl
          injection h with h
          subst h
          exact .inr ⟨hl c (by simp), l, c', l'', rfl, hc, fun x hx => hl x (by simp [hx])⟩
      · rintro (h | ⟨hn, l, c', l', rfl, hc, hl⟩)
        · exact ⟨calls, c, [], rfl, h, by simp⟩
        · refine ⟨l, c', l' ++ [c], by simp, hc, fun x hx => ?_⟩
          rcases List.mem_append.mp hx with hx | hx
          · exact hl x hx
          · simp only [List.mem_singleton] at hx
            subst hx
            exact hn
    rw [hlast]
    have hb : ValuesBuilder.build b (calls ++ [c]) = (ValuesBuilder.call b (ValuesBuilder.build b calls) c).2 := by
      simp [ValuesBuilder.build]
    rw [hb]
    unfold ValuesBuilder.call
    cases hc : c.arg b with
    | ok w =>
      simp only
      rw [mem_bInsert _ _ _ _ (hs calls), ih]
      simp only [sets_iff, hc, Res.ok.injEq, Prod.mk.injEq, ne_eq]
      constructor
      · rintro (⟨rfl, rfl⟩ | ⟨h, hk⟩)
        · exact .inl ⟨rfl, rfl⟩
        · exact .inr ⟨fun w h => hk h.1.symm, h⟩
      · rintro (⟨rfl, rfl⟩ | ⟨h, hk⟩)
        · exact .inl ⟨rfl, rfl⟩
        · exact .inr ⟨hk, fun he => h w ⟨he.symm, rfl⟩⟩
    | err e => simp [sets_iff, hc, ih]
    | panic => simp [sets_iff, hc, ih]

/-- **C174** Two histories with the same last successful call for every attribute give the same values. -/
theorem values_order (b : Build) (calls calls' : List ValuesCall) (h : ∀ a v, LastSets b calls a v ↔ LastSets b calls' a v) :
    ValuesBuilder.build b calls = ValuesBuilder.build b calls' := by
  refine sorted_ext Prod.fst _ _ (values_sorted b calls [] (by simp [Sorted])) (values_sorted b calls' [] (by simp [Sorted])) ?_
  rintro ⟨a, v⟩
  change (a, v) ∈ ValuesBuilder.build b calls ↔ (a, v) ∈ ValuesBuilder.build b calls'
  rw [(values_builder b calls).2, (values_builder b calls').2, h]

/-- **C174** The decimal text of a number, written by either build, sets the same as the number itself. -/
theorem values_dec (b : Build) (m : Map CredentialValue) (a : String) (x y : Int) (s t : String)
    (hs : s = String.ofList (toDec x) ∨ s = String.ofList (osslToDec x))
    (ht : t = String.ofList (toDec y) ∨ t = String.ofList (osslToDec y)) :
    ValuesBuilder.call b m (.decKnown a s) = ValuesBuilder.call b m (.known a x) ∧
    ValuesBuilder.call b m (.decHidden a s) = ValuesBuilder.call b m (.hidden a x) ∧
    ValuesBuilder.call b m (.decCommitment a s t) = ValuesBuilder.call b m (.commitment a x y) := by
  have key : ∀ (x : Int) (s : String), s = String.ofList (toDec x) ∨ s = String.ofList (osslToDec x) →
      fromDecOf b s = .ok x := by
    intro x s hs
    obtain ⟨h1, h2, h3, h4⟩ := dec_round_trip x
    rcases hs with rfl | rfl <;> cases b <;> simp [fromDecOf, String.toList_ofList, h1, h2, h3, h4]
  have h1 := key x s hs
  have h2 := key y t ht
  simp [ValuesBuilder.call, ValuesCall.arg, ValuesCall.attr, h1, h2, Res.pure_eq]

/-- **C174** Which texts are accepted as the value of an attribute, and what they mean: the portable build wants an optional sign
and digits (with underscores), the build with OpenSSL reads an optional minus and the longest run of digits, ignoring what follows. -/
theorem fromDecOf_ok_iff (s : String) (x : Int) :
    (fromDecOf .portable s = .ok x ↔ ∃ sign body, (sign = [] ∨ sign = ['+'] ∨ sign = ['-']) ∧ s.toList = sign ++ body ∧ IsLoose 10 body ∧
      x = (if sign = ['-'] then -1 else 1) * (value 10 (body.filter (fun c => decide (c ≠ '_'))) : Int)) ∧
    (fromDecOf .native s = .ok x ↔ Char.ofNat 0 ∉ s.toList ∧ ∃ sign ds rest, (sign = [] ∨ sign = ['-']) ∧ s.toList = sign ++ ds ++ rest ∧
      IsNumeral 10 ds ∧ (∀ c ∈ rest.head?, ¬ IsDigit 10 c) ∧ x = (if sign = ['-'] then -1 else 1) * (value 10 ds : Int)) :=
  ⟨rust_parse_ok_iff 10 (by norm_num) s.toList x, ossl_parse_ok_iff 10 (by norm_num) s.toList x⟩

/-- **C174** What a builder has made survives storage as JSON. -/
theorem values_stored (b c c' : Build) (calls : List ValuesCall) :
    valuesFromJson c' (valuesToJson c (ValuesBuilder.build b calls)) = .ok (ValuesBuilder.build b calls) ∧
    ∀ attrs, schemaFromJson (schemaToJson (SchemaBuilder.build attrs)) = .ok (SchemaBuilder.build attrs) :=
  ⟨values_round_trip c c' _ (values_builder b calls).1, fun attrs => schema_round_trip _ (schema_builder attrs).1⟩

/-! ## Proof requests -/

/-- The four names of predicate types. -/
def Named (t : String) (p : PredicateType) : Prop :=
  (t = "GE" ∧ p = .GE) ∨ (t = "LE" ∧ p = .LE) ∨ (t = "GT" ∧ p = .GT) ∨ (t = "LT" ∧ p = .LT)

theorem parse_iff (t : String) (p : PredicateType) : PredicateType.parse t = .ok p ↔ Named t p := by
  unfold Named PredicateType.parse
  split
  · cases p <;> simp
  · cases p <;> simp
  · cases p <;> simp
  · cases p <;> simp
  · rename_i h1 h2 h3 h4
    simp only [reduceCtorEq, false_iff]
    rintro (⟨rfl, -⟩ | ⟨rfl, -⟩ | ⟨rfl, -⟩ | ⟨rfl, -⟩) <;> contradiction

theorem parse_ne_panic (t : String) : PredicateType.parse t ≠ .panic := by
  unfold PredicateType.parse
  split <;> simp

theorem predicate_key_injective : Function.Injective Predicate.key := by
  rintro ⟨a, t, v⟩ ⟨a', t', v'⟩ h
  simp only [Predicate.key, EmbeddingLike.apply_eq_iff_eq, Prod.mk.injEq] at h
  obtain ⟨rfl, ht, rfl⟩ := h
  cases t <;> cases t' <;> simp_all [PredicateType.rank]

/-- **C175** A call that asks for a predicate fails if and only if the type is none of the four names, and then the builder
is as before; it never crashes. -/
theorem request_call (r : SubProofRequest) (a t : String) (v : Int) :
    ((RequestBuilder.call r (.predicate a t v)).1 = .ok () ↔ ∃ p, Named t p) ∧
    ((RequestBuilder.call r (.predicate a t v)).1 ≠ .ok () → (RequestBuilder.call r (.predicate a t v)).2 = r) ∧
    (RequestBuilder.call r (.predicate a t v)).1 ≠ .panic := by
  have hp := parse_iff t
  have hn := parse_ne_panic t
  unfold RequestBuilder.call
  simp only
  cases h : PredicateType.parse t with
  | ok p => simp [← hp, h]
  | err e => simp [← hp, h]
  | panic => exact absurd h hn

theorem request_foldl (calls : List RequestCall) (r : SubProofRequest) (hr : Sorted Predicate.key r.predicates) :
    let q := calls.foldl (fun r c => (RequestBuilder.call r c).2) r
    Sorted Predicate.key q.predicates ∧
    (∀ a, a ∈ q.revealed ↔ a ∈ r.revealed ∨ .reveal a ∈ calls) ∧
    (∀ p, p ∈ q.predicates ↔ p ∈ r.predicates ∨ ∃ t, Named t p.pType ∧ .predicate p.attrName t p.value ∈ calls) := by
  induction calls generalizing r with
  | nil => exact ⟨hr, fun a => by simp, fun p => by simp⟩
  | cons c calls ih =>
    cases c with
    | reveal a =>
      obtain ⟨h1, h2, h3⟩ := ih { r with revealed := insert a r.revealed } hr
      refine ⟨h1, fun x => ?_, fun p => ?_⟩
      · refine (h2 x).trans ?_
        simp only [Finset.mem_insert, List.mem_cons, RequestCall.reveal.injEq]
        tauto
      · refine (h3 p).trans ?_
        simp
    | predicate a t v =>
      cases ht : PredicateType.parse t with
      | ok ty =>
        have hnamed := (parse_iff t ty).mp ht
        have hstep : (RequestBuilder.call r (.predicate a t v)).2 =
            { r with predicates := bInsert Predicate.key ⟨a, ty, v⟩ r.predicates } := by simp [RequestBuilder.call, ht]
        obtain ⟨h1, h2, h3⟩ := ih { r with predicates := bInsert Predicate.key ⟨a, ty, v⟩ r.predicates }
          (sorted_bInsert _ _ _ hr)
        simp only [List.foldl_cons, hstep]
        refine ⟨h1, fun x => ?_, fun p => ?_⟩
        · refine (h2 x).trans ?_
          simp
        · refine (h3 p).trans ?_
          simp only [mem_bInsert _ _ _ _ hr, List.mem_cons, RequestCall.predicate.injEq]
          constructor
          · rintro ((rfl | ⟨h, -⟩) | ⟨t', h', h⟩)
            · exact .inr ⟨t, hnamed, .inl ⟨rfl, rfl, rfl⟩⟩
            · exact .inl h
            · exact .inr ⟨t', h', .inr h⟩
          · rintro (h | ⟨t', h', ⟨h4, h5, h6⟩ | h⟩)
            · by_cases he : p = ⟨a, ty, v⟩
              · exact .inl (.inl he)
              · exact .inl (.inr ⟨h, fun hk => he (predicate_key_injective hk)⟩)
            · subst h5
              have : p.pType = ty := by
                have h7 := ((parse_iff t' p.pType).mpr h').symm.trans ht
                injection h7
              left; left
              cases p
              simp_all
            · exact .inr ⟨t', h', h⟩
      | err e =>
        have hstep : (RequestBuilder.call r (.predicate a t v)).2 = r := by simp [RequestBuilder.call, ht]
        obtain ⟨h1, h2, h3⟩ := ih r hr
        simp only [List.foldl_cons, hstep]
        refine ⟨h1, fun x => ?_, fun p => ?_⟩
        · refine (h2 x).trans ?_
          simp
        · refine (h3 p).trans ?_
          simp only [List.mem_cons, RequestCall.predicate.injEq]
          constructor
          · rintro (h | ⟨t', h', h⟩)
            · exact .inl h
            · exact .inr ⟨t', h', .inr h⟩
          · rintro (h | ⟨t', h', ⟨h4, rfl, h6⟩ | h⟩)
            · exact .inl h
            · rw [← parse_iff, ht] at h'; cases h'
            · exact .inr ⟨t', h', h⟩
      | panic => exact absurd ht (parse_ne_panic t)

/-- **C175** A request reveals exactly the attributes asked for, and has exactly the predicates asked for under one of the
four names, once each, ordered by name, type and value. -/
theorem request_builder (calls : List RequestCall) :
    (∀ a, a ∈ (RequestBuilder.build calls).revealed ↔ .reveal a ∈ calls) ∧
    (∀ p, p ∈ (RequestBuilder.build calls).predicates ↔ ∃ t, Named t p.pType ∧ .predicate p.attrName t p.value ∈ calls) ∧
    (RequestBuilder.build calls).predicates.Pairwise (fun p q => p.key < q.key) := by
  obtain ⟨h1, h2, h3⟩ := request_foldl calls { revealed := ∅, predicates := [] } (by simp [Sorted])
  exact ⟨fun a => by simpa [RequestBuilder.build] using h2 a, fun p => by simpa [RequestBuilder.build] using h3 p, h1⟩

/-- **C175** The order and the number of calls do not matter. -/
theorem request_order (calls calls' : List RequestCall) (h : ∀ c, c ∈ calls ↔ c ∈ calls') :
    RequestBuilder.build calls = RequestBuilder.build calls' := by
  obtain ⟨h1, h2, h3⟩ := request_builder calls
  obtain ⟨h1', h2', h3'⟩ := request_builder calls'
  have e1 : (RequestBuilder.build calls).revealed = (RequestBuilder.build calls').revealed := by
    ext a; rw [h1, h1', h]
  have e2 := sorted_ext Predicate.key _ _ h3 h3' (fun p => by rw [h2, h2']; simp only [h])
  generalize RequestBuilder.build calls = q at *
  generalize RequestBuilder.build calls' = q' at *
  cases q; cases q'; simp_all

/-- The call that asks for a predicate. -/
def askFor (p : Predicate) : RequestCall :=
  .predicate p.attrName (match p.pType with | .GE => "GE" | .LE => "LE" | .GT => "GT" | .LT => "LT") p.value

/-- **C175** A request read from a document is the request built from its names and predicates, whatever their order and
repetitions. -/
theorem request_read (names : List String) (preds : List Predicate) (hv : ∀ p ∈ preds, InI32 p.value) :
    SubProofRequest.fromJson (.obj [("revealed_attrs", ofVec .str names), ("predicates", ofVec Predicate.toJson preds)]) =
      .ok (RequestBuilder.build (names.map .reveal ++ preds.map askFor)) := by
  have h1 := roundTrip_vec Json.str readStr names (fun x _ => rfl)
  have h2 := roundTrip_vec Predicate.toJson Predicate.fromJson preds (fun p hp => predicate_round_trip p (hv p hp))
  have e1 : ∀ (names : List String) (r : SubProofRequest),
      (names.map RequestCall.reveal).foldl (fun r c => (RequestBuilder.call r c).2) r =
        { r with revealed := r.revealed ∪ names.toFinset } := by
    intro names
    induction names with
    | nil => intro r; simp
    | cons a names ih =>
      intro r
      have hu : insert a r.revealed ∪ names.toFinset = r.revealed ∪ (a :: names).toFinset := by
        ext x
        simp only [Finset.mem_union, Finset.mem_insert, List.toFinset_cons]
        tauto
      have hc : (RequestBuilder.call r (.reveal a)).2 = { r with revealed := insert a r.revealed } := rfl
      simp only [List.map_cons, List.foldl_cons, hc, ih, hu]
  have e2 : ∀ (preds : List Predicate) (r : SubProofRequest),
      (preds.map askFor).foldl (fun r c => (RequestBuilder.call r c).2) r =
        { r with predicates := preds.foldl (fun l x => bInsert Predicate.key x l) r.predicates } := by
    intro preds
    induction preds with
    | nil => intro r; simp
    | cons p preds ih =>
      intro r
      have : (RequestBuilder.call r (askFor p)).2 = { r with predicates := bInsert Predicate.key p r.predicates } := by
        obtain ⟨a, t, v⟩ := p
        cases t <;> simp [askFor, RequestBuilder.call, PredicateType.parse]
      simp only [List.map_cons, List.foldl_cons, ih, this]
  simp only [RequestBuilder.build, List.foldl_append, e1, e2]
  simp [SubProofRequest.fromJson, fields, req, List.filter, h1, h2]

/-- **C175** Which documents are read as a request. -/
theorem request_format (b : Build) : Format SubProofRequest.fromJson ["revealed_attrs", "predicates"] [] ∧
    Safe b SubProofRequest.fromJson := by
  constructor
  · format_of SubProofRequest.fromJson
  · safe_of SubProofRequest.fromJson [predicate_safe b]

/-- Non-vacuity: an unknown type is refused, the rest of the request is built. -/
example : (RequestBuilder.build [.predicate "age" "EQ" 18, .predicate "age" "GE" 18, .reveal "name"]).revealed = {"name"} ∧
    (RequestBuilder.build [.predicate "age" "EQ" 18, .predicate "age" "GE" 18, .reveal "name"]).predicates =
      [⟨"age", .GE, 18⟩] := by
  simp [RequestBuilder.build, RequestBuilder.call, PredicateType.parse, bInsert]

/-! ## C173: objects that are stored in between -/

section
variable {F G1 G2 : Type} [Field F] [AddCommGroup G1] [Module F G1] [AddCommGroup G2] [Module F G2]
  (tF : Txt F) (t1 : Txt G1) (t2 : Txt G2)

/-- What is done with a generator of tails: a tail is asked for, or the generator is stored and read back. -/
inductive GenStep | next | store

/-- A run: the answers, in order. -/
def runGen : List GenStep → Rev.TailsGen F G2 → Res String (List (Option G2))
  | [], _ => .ok []
  | .next :: l, g => do
    let out ← runGen l g.tryNext.2
    pure (g.tryNext.1 :: out)
  | .store :: l, g => do
    let g' ← Rev.TailsGen.fromJson tF t2 (g.toJson tF t2)
    runGen l g'

/-- The number of tails asked for. -/
def asked : List GenStep → Nat
  | [] => 0
  | .next :: l => asked l + 1
  | .store :: l => asked l

/-- **C173** A generator may be stored and read back at any time: the answers are the powers of the secret in order, one for
each tail asked for, and none after the last. -/
theorem generator_interrupted (steps : List GenStep) (g : Rev.TailsGen F G2) (hs : g.size < 2 ^ 32) (hi : g.currentIndex ≤ g.size) :
    runGen tF t2 steps g = .ok ((List.range (asked steps)).map (fun k =>
      if g.currentIndex + k < g.size then some ((g.gamma ^ (g.currentIndex + k)) • g.gDash) else none)) := by
  induction steps generalizing g with
  | nil => simp [runGen, asked]
  | cons s steps ih =>
    cases s with
    | store =>
      have h : Rev.TailsGen.fromJson tF t2 (g.toJson tF t2) = .ok g := tailsGen_round_trip tF t2 g hs (lt_of_le_of_lt hi hs)
      simp only [runGen, h, Res.ok_bind, asked]
      exact ih g hs hi
    | next =>
      simp only [runGen, asked, List.range_succ_eq_map, List.map_cons, List.map_map]
      by_cases hlt : g.currentIndex < g.size
      · have h1 : g.tryNext = (some ((g.gamma ^ g.currentIndex) • g.gDash), { g with currentIndex := g.currentIndex + 1 }) := by
          simp [Rev.TailsGen.tryNext, Rev.newTail, hlt]
        rw [h1, ih { g with currentIndex := g.currentIndex + 1 } hs hlt]
        simp only [Res.ok_bind, Res.pure_eq, Res.ok.injEq, add_zero, if_pos hlt, List.cons.injEq, true_and]
        apply List.map_congr_left
        intro k _
        simp only [Function.comp_apply, Nat.succ_eq_add_one, add_assoc, add_comm 1 k]
      · have h1 : g.tryNext = (none, g) := by
          simp [Rev.TailsGen.tryNext, not_lt.mp hlt]
        rw [h1, ih g hs hi]
        simp only [Res.ok_bind, Res.pure_eq, Res.ok.injEq, add_zero, if_neg hlt, List.cons.injEq, true_and]
        apply List.map_congr_left
        intro k _
        simp only [Function.comp_apply]
        rw [if_neg (by omega), if_neg (by omega)]

/-- **C173** A document with an index beyond the size is read without complaint, and the generator it yields has no tails;
asking it how many are left crashes where overflow is checked, and says up to 2^32 - 1 where it wraps. -/
theorem generator_not_checked (size index : Nat) (h : size < index) (hi : index < 2 ^ 32) (gDash : G2) (gamma : F) :
    let g : Rev.TailsGen F G2 := { size := size, currentIndex := index, gDash := gDash, gamma := gamma }
    Rev.TailsGen.fromJson tF t2 (.obj [("size", .num size), ("current_index", .num index), ("g_dash", .str (t2.enc gDash)),
      ("gamma", .str (tF.enc gamma))]) = .ok g ∧ g.tryNext = (none, g) ∧ g.countU32 .checked = .panic ∧
      g.countU32 .wrapping = .ok (2 ^ 32 - (index - size)) := by
  refine ⟨tailsGen_round_trip tF t2 ⟨size, index, gDash, gamma⟩ (lt_trans h hi) hi, ?_, ?_, ?_⟩
  · simp [Rev.TailsGen.tryNext, h.le]
  · simp only [Rev.TailsGen.countU32, Rev.u32]
    rw [if_neg (by omega)]
  · simp only [Rev.TailsGen.countU32, Rev.u32]
    rw [if_neg (by omega)]
    congr 1
    omega

/-- **C173** Where the index is within the size, `count` is the number of tails that are left. -/
theorem generator_count (m : Overflow) (g : Rev.TailsGen F G2) (hs : g.size < 2 ^ 32) (hi : g.currentIndex ≤ g.size) :
    g.countU32 m = .ok (g.size - g.currentIndex) := by
  simp only [Rev.TailsGen.countU32, Rev.u32]
  rw [if_pos (by omega)]
  congr 1
  omega

theorem lookup_map {α β : Type} (f : α → β) (m : Map α) (k : String) :
    (m.map (fun e => (e.1, f e.2))).lookup k = (m.lookup k).map f := by
  induction m with
  | nil => rfl
  | cons e m ih =>
    simp only [List.map_cons, List.lookup]
    cases h : k == e.1 <;> simp [ih]

/-- **C173** `revealed_attrs` gives exactly the revealed attributes, and both builds read each text as the revealed value. -/
theorem revealed_texts (b : Build) (x : SubProof F G1 G2) (name : String) :
    match x.primary.eq.revealed.lookup name with
    | none => (x.revealedAttrs b).lookup name = none
    | some v => ∃ s, (x.revealedAttrs b).lookup name = some s ∧ ∀ b', fromDecOf b' s = .ok v := by
  cases b with
  | portable =>
    have := lookup_map (fun v => String.ofList (toDec v)) x.primary.eq.revealed name
    cases h : x.primary.eq.revealed.lookup name with
    | none => simpa [SubProof.revealedAttrs, h] using this
    | some v =>
      refine ⟨_, by simpa [SubProof.revealedAttrs, h] using this, fun b' => ?_⟩
      obtain ⟨h1, h2, h3, h4⟩ := dec_round_trip v
      cases b' <;> simp [fromDecOf, String.toList_ofList, h1, h4]
  | native =>
    have := lookup_map (fun v => String.ofList (osslToDec v)) x.primary.eq.revealed name
    cases h : x.primary.eq.revealed.lookup name with
    | none => simpa [SubProof.revealedAttrs, h] using this
    | some v =>
      refine ⟨_, by simpa [SubProof.revealedAttrs, h] using this, fun b' => ?_⟩
      obtain ⟨h1, h2, h3, h4⟩ := dec_round_trip v
      cases b' <;> simp [fromDecOf, String.toList_ofList, h2, h3]

/-- **C172** The native build crashes on a number with the character of code 0, in every place where a number is read: the
hypothesis of the theorems on safe readers cannot be dropped. -/
theorem native_crashes : ¬ NeverPanics (masterSecretFromJson .native) ∧ ¬ NeverPanics (SigProof.fromJson .native) ∧
    ¬ NeverPanics (PrimaryPubKey.fromJson .native) := by
  have h : readBn .native (.str (String.ofList [Char.ofNat 0])) = .panic := by
    have := (ossl_parse_panic_iff 10 [Char.ofNat 0]).mpr (by simp)
    simp only [readBn, osslDeserialize, osslFromDec, String.toList_ofList, this, liftErr]
  refine ⟨fun hn => hn (.obj [("ms", .str (String.ofList [Char.ofNat 0]))]) ?_,
    fun hn => hn (.obj [("se", .str (String.ofList [Char.ofNat 0]))]) ?_,
    fun hn => hn (.obj [("n", .str (String.ofList [Char.ofNat 0]))]) ?_⟩
  · simp [masterSecretFromJson, fields, req, List.filter, h]
  · simp [SigProof.fromJson, fields, req, List.filter, h, Res.panic_bind]
  · simp [PrimaryPubKey.fromJson, fields, req, List.filter, h, Res.panic_bind]

end

end Verif.CL
