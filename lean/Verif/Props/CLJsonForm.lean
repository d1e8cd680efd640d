import Verif.Props.CLJson
/-!
# Which documents are read as objects of the CL scheme (C172, C173)
-/
set_option linter.unusedSectionVars false
set_option linter.unusedSimpArgs false
set_option linter.unusedVariables false

namespace Verif.CL

open Verif BN Json

/-! ## Specification -/

/-- The documents a reader accepts at most: objects with exactly one entry under each required name and at most one under
each optional name.  Entries under other names and the order of entries do not count. -/
structure Format {α : Type} (r : Reader α) (required optional : List String) : Prop where
  /-- only objects -/
  obj : ∀ j x, r j = .ok x → ∃ fs, j = .obj fs
  /-- required fields once, optional ones at most once -/
  needs : Needs r required
  once : ∀ fs, ∀ n ∈ optional, 1 < (entries fs n).length → ∀ x, r (.obj fs) ≠ .ok x
  /-- nothing else is looked at -/
  looks : Looks r (required ++ optional)

/-- A text in a document. -/
inductive Occurs (s : String) : Json → Prop
  | str : Occurs s (.str s)
  | arr {l : List Json} {j : Json} (hj : j ∈ l) (h : Occurs s j) : Occurs s (.arr l)
  | obj {fs : List (String × Json)} {e : String × Json} (he : e ∈ fs) (h : Occurs s e.2) : Occurs s (.obj fs)

/-- For the native build: no text of the document has a character with code 0.  For the portable build: nothing. -/
def Clean (b : Build) (j : Json) : Prop := b = .native → ∀ s, Occurs s j → Char.ofNat 0 ∉ s.toList

/-- A reader that crashes on no clean document. -/
def Safe {α : Type} (b : Build) (r : Reader α) : Prop := ∀ j, Clean b j → r j ≠ .panic

/-! ## Building blocks -/

theorem req_bad {α : Type} (fs : List (String × Json)) (n : String) (r : Reader α) (h : (entries fs n).length ≠ 1) :
    ∃ e, req fs n r = .err e := by
  unfold req
  simp only [entries] at h
  split
  · exact ⟨_, rfl⟩
  · rename_i e he; rw [he] at h; simp at h
  · exact ⟨_, rfl⟩

theorem dflt_bad {α : Type} (fs : List (String × Json)) (n : String) (d : α) (r : Reader α) (h : 1 < (entries fs n).length) :
    ∃ e, dflt fs n d r = .err e := by
  unfold dflt
  simp only [entries] at h
  split
  · rename_i he; rw [he] at h; simp at h
  · rename_i e he; rw [he] at h; simp at h
  · exact ⟨_, rfl⟩

theorem bad_bn (b : Build) (fs : List (String × Json)) (n : String) (h : (entries fs n).length ≠ 1) (a : Int) :
    req fs n (readBn b) = .ok a ↔ False := by
  obtain ⟨e, he⟩ := req_bad fs n (readBn b) h
  simp [he]

theorem req_ok_iff {α : Type} (fs : List (String × Json)) (n : String) (r : Reader α) (h : (entries fs n).length ≠ 1) (a : α) :
    (req fs n r = .ok a) = False := by
  obtain ⟨e, he⟩ := req_bad fs n r h
  simp [he]

theorem dflt_ok_iff {α : Type} (fs : List (String × Json)) (n : String) (d : α) (r : Reader α)
    (h : 1 < (entries fs n).length) (a : α) : (dflt fs n d r = .ok a) = False := by
  obtain ⟨e, he⟩ := dflt_bad fs n d r h
  simp [he]

theorem req_entries {α : Type} {fs gs : List (String × Json)} {n : String} (r : Reader α) (h : entries fs n = entries gs n) :
    req fs n r = req gs n r := by
  simp only [entries] at h
  simp only [req, h]

theorem dflt_entries {α : Type} {fs gs : List (String × Json)} {n : String} (d : α) (r : Reader α)
    (h : entries fs n = entries gs n) : dflt fs n d r = dflt gs n d r := by
  simp only [entries] at h
  simp only [dflt, h]

/-- prove a format from the definition of the reader -/
macro "format_of" d:ident : tactic => `(tactic| (
  constructor
  · intro j x h
    cases j <;> simp [$d:ident, fields] at h ⊢
  · intro fs
    simp only [List.mem_cons, List.not_mem_nil, or_false, forall_eq_or_imp, forall_eq]
    repeat' apply And.intro
    all_goals
      intro hl x
      rw [$d:ident]
      simp only [fields, Res.ok_bind, ne_eq, Res.bind_eq_ok, req_ok_iff _ _ _ hl, false_and, and_false, exists_false,
        not_false_eq_true]
  · intro fs
    simp only [List.mem_cons, List.not_mem_nil, or_false, forall_eq_or_imp, forall_eq, false_implies, implies_true]
    all_goals repeat' apply And.intro
    all_goals
      intro hl x
      rw [$d:ident]
      simp only [fields, Res.ok_bind, ne_eq, Res.bind_eq_ok, dflt_ok_iff _ _ _ _ hl, false_and, and_false, exists_false,
        not_false_eq_true]
  · intro fs gs h
    simp only [List.cons_append, List.nil_append, List.mem_cons, List.not_mem_nil, or_false, forall_eq_or_imp, forall_eq] at h
    simp only [entries] at h
    simp only [$d:ident, fields, Res.ok_bind, req, dflt, h]))

theorem bind_ne_panic {ε α β : Type} {x : Res ε α} {f : α → Res ε β} (hx : x ≠ .panic) (hf : ∀ a, f a ≠ .panic) :
    (x >>= f) ≠ .panic := by
  cases x with
  | ok a => exact hf a
  | err e => simp [Res.err_bind]
  | panic => exact absurd rfl hx

theorem pure_ne_panic {ε α : Type} (a : α) : (pure a : Res ε α) ≠ .panic := by simp [Res.pure_eq]

theorem Clean.arr {b : Build} {l : List Json} (h : Clean b (.arr l)) {j : Json} (hj : j ∈ l) : Clean b j :=
  fun hb s hs => h hb s (.arr hj hs)

theorem Clean.obj {b : Build} {fs : List (String × Json)} (h : Clean b (.obj fs)) {e : String × Json} (he : e ∈ fs) :
    Clean b e.2 := fun hb s hs => h hb s (.obj he hs)

theorem Clean.portable (j : Json) : Clean .portable j := fun h => by cases h

theorem Safe.neverPanics {α : Type} {r : Reader α} (h : Safe .portable r) : NeverPanics r := fun j => h j (Clean.portable j)

theorem safe_req {α : Type} {b : Build} {fs : List (String × Json)} (hc : Clean b (.obj fs)) (n : String) {r : Reader α}
    (hr : Safe b r) : req fs n r ≠ .panic := by
  unfold req
  split
  · simp
  · rename_i e he
    apply hr
    apply hc.obj
    have : e ∈ fs.filter (fun e => e.1 == n) := by rw [he]; simp
    exact (List.mem_filter.mp this).1
  · simp

theorem safe_dflt {α : Type} {b : Build} {fs : List (String × Json)} (hc : Clean b (.obj fs)) (n : String) (d : α)
    {r : Reader α} (hr : Safe b r) : dflt fs n d r ≠ .panic := by
  unfold dflt
  split
  · simp
  · rename_i e he
    apply hr
    apply hc.obj
    have : e ∈ fs.filter (fun e => e.1 == n) := by rw [he]; simp
    exact (List.mem_filter.mp this).1
  · simp

theorem safe_bn (b : Build) : Safe b (readBn b) := by
  intro j hc
  cases b with
  | portable =>
    cases j with
    | str s =>
      have h := rust_parse_total 10 s.toList
      simp only [readBn, deserialize, fromDec]
      cases hp : parseSigned 10 s.toList <;> simp_all [liftErr]
    | _ => simp [readBn]
  | native =>
    cases j with
    | str s =>
      have h := mt (ossl_parse_panic_iff 10 s.toList).mp (hc rfl s .str)
      simp only [readBn, osslDeserialize, osslFromDec]
      cases hp : osslParse 10 s.toList <;> simp_all [liftErr]
    | _ => simp [readBn]

theorem safe_txt {G : Type} (b : Build) (t : Txt G) : Safe b t.read := by
  intro j _
  cases j <;> simp [Txt.read]

theorem safe_str (b : Build) : Safe b readStr := by
  intro j _
  cases j <;> simp [readStr]

theorem safe_nat (b : Build) (n : Nat) : Safe b (readNat n) := by
  intro j _
  cases j <;> simp only [readNat]
  case num => split <;> simp
  all_goals simp

theorem safe_u32 (b : Build) : Safe b readU32 := safe_nat b _

theorem safe_i32 (b : Build) : Safe b readI32 := by
  intro j _
  cases j <;> simp only [readI32]
  case num => split <;> simp
  all_goals simp

theorem safe_opt {α : Type} {b : Build} {r : Reader α} (h : Safe b r) : Safe b (readOpt r) := by
  intro j hc
  cases j <;> simp only [readOpt]
  case null => simp
  all_goals exact bind_ne_panic (h _ hc) (fun a => by simp [Res.pure_eq])

theorem safe_vec {α : Type} {b : Build} {r : Reader α} (h : Safe b r) : Safe b (readVec r) := by
  intro j hc
  cases j with
  | arr l =>
    simp only [readVec]
    have : ∀ j ∈ l, r j ≠ .panic := fun j hj => h j (hc.arr hj)
    clear hc
    induction l with
    | nil => simp [Res.pure_eq]
    | cons x l ih =>
      rw [List.mapM_cons]
      refine bind_ne_panic (this x (by simp)) (fun a => bind_ne_panic (ih (fun j hj => this j (by simp [hj]))) fun l => ?_)
      simp [Res.pure_eq]
  | _ => simp [readVec]

theorem safe_entries {α : Type} {b : Build} {r : Reader α} (h : Safe b r) {fs : List (String × Json)}
    (hc : Clean b (.obj fs)) : readEntries r fs ≠ .panic := by
  unfold readEntries
  have : ∀ e ∈ fs, r e.2 ≠ .panic := fun e he => h _ (hc.obj he)
  clear hc
  generalize ([] : Map α) = acc
  induction fs generalizing acc with
  | nil => simp [Res.pure_eq]
  | cons e fs ih =>
    rw [List.foldlM_cons]
    exact bind_ne_panic (bind_ne_panic (this e (by simp)) fun v => by simp [Res.pure_eq])
      fun m => ih (fun x hx => this x (by simp [hx])) m

theorem safe_hashMap {α : Type} {b : Build} {r : Reader α} (h : Safe b r) : Safe b (readHashMap r) := by
  intro j hc
  cases j with
  | obj fs => exact safe_entries h hc
  | _ => simp [readHashMap]

theorem safe_bTreeMap {α : Type} {b : Build} {r : Reader α} (h : Safe b r) : Safe b (readBTreeMap r) := by
  intro j hc
  cases j with
  | obj fs => exact bind_ne_panic (safe_entries h hc) fun m => by simp [Res.pure_eq]
  | _ => simp [readBTreeMap]

theorem safe_strSet (b : Build) : Safe b readStrSet :=
  fun j hc => bind_ne_panic (safe_vec (safe_str b) j hc) fun l => by simp [Res.pure_eq]

theorem safe_natSet (b : Build) : Safe b readNatSet :=
  fun j hc => bind_ne_panic (safe_vec (safe_u32 b) j hc) fun l => by simp [Res.pure_eq]

theorem safe_bytes (b : Build) : Safe b readBytes :=
  fun j hc => bind_ne_panic (safe_vec (safe_nat b 256) j hc) fun l => by simp [Res.pure_eq]

theorem safe_strBn (b : Build) : Safe b (readStrBn b) := by
  intro j hc
  unfold readStrBn
  split
  · rename_i x y
    exact bind_ne_panic (safe_str b x (hc.arr (by simp))) fun s => bind_ne_panic (safe_bn b y (hc.arr (by simp))) fun a => by
      simp [Res.pure_eq]
  · simp

theorem safe_pType (b : Build) : Safe b PredicateType.fromJson := by
  intro j _
  unfold PredicateType.fromJson
  split <;> simp

/-- prove that a reader is safe from its definition -/
syntax "safe_of" ident "[" term,* "]" : tactic
macro_rules
  | `(tactic| safe_of $d:ident [ $ts:term,* ]) => do
    let ex ← ts.getElems.mapM fun t => `(tactic| exact $t)
    `(tactic| (
      intro j hc
      cases j with
      | obj fs =>
        rw [$d:ident]
        simp only [fields, Res.ok_bind]
        repeat' first
          | refine bind_ne_panic ?_ (fun _ => ?_)
          | exact pure_ne_panic _
          | refine safe_req hc _ ?_
          | refine safe_dflt hc _ _ ?_
          | exact safe_bn _
          | exact safe_txt _ _
          | exact safe_str _
          | exact safe_u32 _
          | exact safe_i32 _
          | exact safe_strSet _
          | exact safe_natSet _
          | exact safe_bytes _
          | exact safe_strBn _
          | exact safe_pType _
          | (first $[| $ex:tactic]*)
          | refine safe_opt ?_
          | refine safe_vec ?_
          | refine safe_hashMap ?_
          | refine safe_bTreeMap ?_
      | _ => simp [$d:ident, fields]))

section
variable {F G1 G2 GT : Type} (tF : Txt F) (t1 : Txt G1) (t2 : Txt G2) (tT : Txt GT) (b : Build)

/-- **C172** -/
theorem primaryPubKey_format : Format (PrimaryPubKey.fromJson b) ["n", "s", "r", "rctxt", "z"]
    ["rms"] := by
  format_of PrimaryPubKey.fromJson

/-- **C172** -/
theorem primaryPubKey_safe : Safe b (PrimaryPubKey.fromJson b) := by
  safe_of PrimaryPubKey.fromJson [safe_bn b]

/-- **C172** -/
theorem primaryPrivKey_format : Format (PrimaryPrivKey.fromJson b) ["p", "q"]
    [] := by
  format_of PrimaryPrivKey.fromJson

/-- **C172** -/
theorem primaryPrivKey_safe : Safe b (PrimaryPrivKey.fromJson b) := by
  safe_of PrimaryPrivKey.fromJson [safe_bn b]

/-- **C172** -/
theorem keyProof_format : Format (KeyProof.fromJson b) ["c", "xz_cap", "xr_cap"]
    [] := by
  format_of KeyProof.fromJson

/-- **C172** -/
theorem keyProof_safe : Safe b (KeyProof.fromJson b) := by
  safe_of KeyProof.fromJson [safe_bn b]

/-- **C172** -/
theorem revPubKey_format : Format (Rev.PubKey.fromJson t1 t2) ["g", "g_dash", "h", "h0", "h1", "h2", "htilde", "h_cap", "u", "pk", "y"]
    [] := by
  format_of Rev.PubKey.fromJson

/-- **C172** -/
theorem revPubKey_safe : Safe b (Rev.PubKey.fromJson t1 t2) := by
  safe_of Rev.PubKey.fromJson [safe_bn b]

/-- **C172** -/
theorem revPrivKey_format : Format (Rev.PrivKey.fromJson tF) ["x", "sk"]
    [] := by
  format_of Rev.PrivKey.fromJson

/-- **C172** -/
theorem revPrivKey_safe : Safe b (Rev.PrivKey.fromJson tF) := by
  safe_of Rev.PrivKey.fromJson [safe_bn b]

/-- **C172** -/
theorem credPubKey_format : Format (CredPubKey.fromJson t1 t2 b) ["p_key"]
    ["r_key"] := by
  format_of CredPubKey.fromJson

/-- **C172** -/
theorem credPubKey_safe : Safe b (CredPubKey.fromJson t1 t2 b) := by
  safe_of CredPubKey.fromJson [primaryPubKey_safe b, revPubKey_safe t1 t2 b]

/-- **C172** -/
theorem credPrivKey_format : Format (CredPrivKey.fromJson tF b) ["p_key"]
    ["r_key"] := by
  format_of CredPrivKey.fromJson

/-- **C172** -/
theorem credPrivKey_safe : Safe b (CredPrivKey.fromJson tF b) := by
  safe_of CredPrivKey.fromJson [primaryPrivKey_safe b, revPrivKey_safe tF b]

/-- **C172** -/
theorem blinded_format : Format (Blinded.fromJson t1 b) ["u", "hidden_attributes", "committed_attributes"]
    ["ur"] := by
  format_of Blinded.fromJson

/-- **C172** -/
theorem blinded_safe : Safe b (Blinded.fromJson t1 b) := by
  safe_of Blinded.fromJson [safe_bn b]

/-- **C172** -/
theorem blindingFactors_format : Format (BlindingFactors.fromJson tF b) ["v_prime"]
    ["vr_prime"] := by
  format_of BlindingFactors.fromJson

/-- **C172** -/
theorem blindingFactors_safe : Safe b (BlindingFactors.fromJson tF b) := by
  safe_of BlindingFactors.fromJson [safe_bn b]

/-- **C172** -/
theorem blindedProof_format : Format (BlindedProof.fromJson b) ["c", "v_dash_cap", "m_caps", "r_caps"]
    [] := by
  format_of BlindedProof.fromJson

/-- **C172** -/
theorem blindedProof_safe : Safe b (BlindedProof.fromJson b) := by
  safe_of BlindedProof.fromJson [safe_bn b]

/-- **C172** -/
theorem primarySig_format : Format (PrimarySig.fromJson b) ["m_2", "a", "e", "v"]
    [] := by
  format_of PrimarySig.fromJson

/-- **C172** -/
theorem primarySig_safe : Safe b (PrimarySig.fromJson b) := by
  safe_of PrimarySig.fromJson [safe_bn b]

/-- **C172** -/
theorem witnessSig_format : Format (readWitnessSig t1 t2) ["sigma_i", "u_i", "g_i"]
    [] := by
  format_of readWitnessSig

/-- **C172** -/
theorem witnessSig_safe : Safe b (readWitnessSig t1 t2) := by
  safe_of readWitnessSig [safe_bn b]

/-- **C172** -/
theorem nonRevSig_format : Format (Rev.NonRevSig.fromJson tF t1 t2) ["sigma", "c", "vr_prime_prime", "witness_signature", "g_i", "i", "m2"]
    [] := by
  format_of Rev.NonRevSig.fromJson

/-- **C172** -/
theorem nonRevSig_safe : Safe b (Rev.NonRevSig.fromJson tF t1 t2) := by
  safe_of Rev.NonRevSig.fromJson [witnessSig_safe t1 t2 b]

/-- **C172** -/
theorem credSig_format : Format (CredSig.fromJson tF t1 t2 b) ["p_credential"]
    ["r_credential"] := by
  format_of CredSig.fromJson

/-- **C172** -/
theorem credSig_safe : Safe b (CredSig.fromJson tF t1 t2 b) := by
  safe_of CredSig.fromJson [primarySig_safe b, nonRevSig_safe tF t1 t2 b]

/-- **C172** -/
theorem sigProof_format : Format (SigProof.fromJson b) ["se", "c"]
    [] := by
  format_of SigProof.fromJson

/-- **C172** -/
theorem sigProof_safe : Safe b (SigProof.fromJson b) := by
  safe_of SigProof.fromJson [safe_bn b]

/-- **C172** -/
theorem masterSecret_format : Format (masterSecretFromJson b) ["ms"]
    [] := by
  format_of masterSecretFromJson

/-- **C172** -/
theorem masterSecret_safe : Safe b (masterSecretFromJson b) := by
  safe_of masterSecretFromJson [safe_bn b]

theorem credentialValue_safe : Safe b (CredentialValue.fromJson b) := by
  intro j hc
  have key : ∀ j, Clean b j → ∀ (f : List (String × Json) → Res String CredentialValue),
      (∀ fs, Clean b (.obj fs) → f fs ≠ .panic) → (fields j >>= f) ≠ .panic := by
    intro j hc f hf
    cases j with
    | obj fs => exact hf fs hc
    | _ => simp [fields, Res.err_bind]
  unfold CredentialValue.fromJson
  split
  · rename_i tag j
    have hc := hc.obj (e := (tag, j)) (by simp)
    split_ifs
    · exact key j hc _ fun fs hc => bind_ne_panic (safe_req hc _ (safe_bn b)) fun _ => pure_ne_panic _
    · exact key j hc _ fun fs hc => bind_ne_panic (safe_req hc _ (safe_bn b)) fun _ => pure_ne_panic _
    · exact key j hc _ fun fs hc => bind_ne_panic (safe_req hc _ (safe_bn b)) fun _ =>
        bind_ne_panic (safe_req hc _ (safe_bn b)) fun _ => pure_ne_panic _
    · simp
  · simp

/-- **C172** -/
theorem values_format : Format (valuesFromJson b) ["attrs_values"]
    [] := by
  format_of valuesFromJson

/-- **C172** -/
theorem values_safe : Safe b (valuesFromJson b) := by
  safe_of valuesFromJson [credentialValue_safe b]

/-- **C172** -/
theorem schema_format : Format schemaFromJson ["attrs"]
    [] := by
  format_of schemaFromJson

/-- **C172** -/
theorem schema_safe : Safe b schemaFromJson := by
  safe_of schemaFromJson [safe_bn b]

/-- **C172** -/
theorem delta_format : Format (Rev.Delta.fromJson t2) ["accum"]
    ["prevAccum", "issued", "revoked"] := by
  format_of Rev.Delta.fromJson

/-- **C172** -/
theorem delta_safe : Safe b (Rev.Delta.fromJson t2) := by
  safe_of Rev.Delta.fromJson [safe_bn b]

/-- **C172** -/
theorem tailsGen_format : Format (Rev.TailsGen.fromJson tF t2) ["size", "current_index", "g_dash", "gamma"]
    [] := by
  format_of Rev.TailsGen.fromJson

/-- **C172** -/
theorem tailsGen_safe : Safe b (Rev.TailsGen.fromJson tF t2) := by
  safe_of Rev.TailsGen.fromJson [safe_bn b]

/-- **C172** -/
theorem predicate_format : Format Predicate.fromJson ["attr_name", "p_type", "value"]
    [] := by
  format_of Predicate.fromJson

/-- **C172** -/
theorem predicate_safe : Safe b Predicate.fromJson := by
  safe_of Predicate.fromJson [safe_bn b]

/-- **C172** -/
theorem eqProof_format : Format (EqProof.fromJson b) ["revealed_attrs", "a_prime", "e", "v", "m", "m2"]
    ["m1"] := by
  format_of EqProof.fromJson

/-- **C172** -/
theorem eqProof_safe : Safe b (EqProof.fromJson b) := by
  safe_of EqProof.fromJson [safe_bn b]

/-- **C172** -/
theorem neProof_format : Format (NeProof.fromJson b) ["u", "r", "mj", "alpha", "t", "predicate"]
    [] := by
  format_of NeProof.fromJson

/-- **C172** -/
theorem neProof_safe : Safe b (NeProof.fromJson b) := by
  safe_of NeProof.fromJson [predicate_safe b]

/-- **C172** -/
theorem primaryProof_format : Format (PrimaryProof.fromJson b) ["eq_proof", "ge_proofs"]
    [] := by
  format_of PrimaryProof.fromJson

/-- **C172** -/
theorem primaryProof_safe : Safe b (PrimaryProof.fromJson b) := by
  safe_of PrimaryProof.fromJson [eqProof_safe b, neProof_safe b]

/-- **C172** -/
theorem xList_format : Format (Rev.XList.fromJson tF) ["rho", "r", "r_prime", "r_prime_prime", "r_prime_prime_prime", "o", "o_prime", "m", "m_prime", "t", "t_prime", "m2", "s", "c"]
    [] := by
  format_of Rev.XList.fromJson

/-- **C172** -/
theorem xList_safe : Safe b (Rev.XList.fromJson tF) := by
  safe_of Rev.XList.fromJson [safe_bn b]

/-- **C172** -/
theorem cList_format : Format (Rev.CList.fromJson t1 t2) ["e", "d", "a", "g", "w", "s", "u"]
    [] := by
  format_of Rev.CList.fromJson

/-- **C172** -/
theorem cList_safe : Safe b (Rev.CList.fromJson t1 t2) := by
  safe_of Rev.CList.fromJson [safe_bn b]

/-- **C172** -/
theorem nonRevoc_format : Format (nonRevocFromJson tF t1 t2) ["x_list", "c_list"]
    [] := by
  format_of nonRevocFromJson

/-- **C172** -/
theorem nonRevoc_safe : Safe b (nonRevocFromJson tF t1 t2) := by
  safe_of nonRevocFromJson [xList_safe tF b, cList_safe t1 t2 b]

/-- **C172** -/
theorem subProof_format : Format (SubProof.fromJson tF t1 t2 b) ["primary_proof"]
    ["non_revoc_proof"] := by
  format_of SubProof.fromJson

/-- **C172** -/
theorem subProof_safe : Safe b (SubProof.fromJson tF t1 t2 b) := by
  safe_of SubProof.fromJson [primaryProof_safe b, nonRevoc_safe tF t1 t2 b]

/-- **C172** -/
theorem aggregated_format : Format (readAggregated b) ["c_hash", "c_list"]
    [] := by
  format_of readAggregated

/-- **C172** -/
theorem aggregated_safe : Safe b (readAggregated b) := by
  safe_of readAggregated [safe_bn b]

/-- **C172** -/
theorem proof_format : Format (Proof.fromJson tF t1 t2 b) ["proofs", "aggregated_proof"]
    [] := by
  format_of Proof.fromJson

/-- **C172** -/
theorem proof_safe : Safe b (Proof.fromJson tF t1 t2 b) := by
  safe_of Proof.fromJson [subProof_safe tF t1 t2 b, aggregated_safe b]

end
/-! ## Numbers and absent fields -/

/-- C172: the numbers accepted where a `u32`, a byte or an `i32` is expected are exactly those of that type. -/
theorem number_ranges (j : Json) (k : Nat) (i : Int) :
    (readU32 j = .ok k ↔ j = .num k ∧ k < 4294967296) ∧
    (readNat 256 j = .ok k ↔ j = .num k ∧ k < 256) ∧
    (readI32 j = .ok i ↔ j = .num i ∧ -2147483648 ≤ i ∧ i ≤ 2147483647) := by
  have key : ∀ n : Nat, (readNat n j = .ok k ↔ j = .num k ∧ k < n) := by
    intro n
    cases j with
    | num m =>
      simp only [readNat, Json.num.injEq]
      split
      · rw [Res.ok.injEq]; omega
      · constructor
        · intro h; cases h
        · rintro ⟨h1, h2⟩; omega
    | _ => simp [readNat]
  refine ⟨key _, key _, ?_⟩
  cases j with
  | num m =>
    have hi : InI32 m ↔ -2147483648 ≤ m ∧ m ≤ 2147483647 := by
      unfold InI32
      norm_num
      omega
    simp only [readI32, Json.num.injEq]
    by_cases h : InI32 m
    · rw [if_pos h, Res.ok.injEq]
      have := hi.mp h
      constructor
      · rintro rfl; exact ⟨rfl, this⟩
      · rintro ⟨rfl, -⟩; rfl
    · rw [if_neg h]
      constructor
      · intro h; cases h
      · rintro ⟨rfl, h2⟩; exact absurd (hi.mpr h2) h
  | _ => simp [readI32]

/-- C172: the fields that may be missing: a public or private key without `r_key`, a credential signature without
`r_credential`, a proof without `non_revoc_proof`, a request for a registry change without lists of indices is read as if
they were `null` or empty. -/
theorem optional_fields {F G1 G2 : Type} (tF : Txt F) (t1 : Txt G1) (t2 : Txt G2) (b : Build) (v : Json) :
    CredPubKey.fromJson t1 t2 b (.obj [("p_key", v)]) = CredPubKey.fromJson t1 t2 b (.obj [("p_key", v), ("r_key", .null)]) ∧
    CredPrivKey.fromJson tF b (.obj [("p_key", v)]) = CredPrivKey.fromJson tF b (.obj [("p_key", v), ("r_key", .null)]) ∧
    CredSig.fromJson tF t1 t2 b (.obj [("p_credential", v)]) =
      CredSig.fromJson tF t1 t2 b (.obj [("p_credential", v), ("r_credential", .null)]) ∧
    SubProof.fromJson tF t1 t2 b (.obj [("primary_proof", v)]) =
      SubProof.fromJson tF t1 t2 b (.obj [("primary_proof", v), ("non_revoc_proof", .null)]) ∧
    Rev.Delta.fromJson t2 (.obj [("accum", v)]) =
      Rev.Delta.fromJson t2 (.obj [("accum", v), ("issued", .arr []), ("revoked", .arr [])]) := by
  refine ⟨?_, ?_, ?_, ?_, ?_⟩
  · simp [CredPubKey.fromJson, fields, req, dflt, readOpt]
  · simp [CredPrivKey.fromJson, fields, req, dflt, readOpt]
  · simp [CredSig.fromJson, fields, req, dflt, readOpt]
  · simp [SubProof.fromJson, fields, req, dflt, readOpt]
  · simp [Rev.Delta.fromJson, fields, req, dflt, readOpt, readNatSet, readVec]

end Verif.CL
