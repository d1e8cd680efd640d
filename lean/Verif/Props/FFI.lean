import Verif.Props.FFICall

/-!
# C129-C134: the C interface

Correct calls with missing arguments are refused without effect (C129); programs that follow the
documentation never reach undefined behaviour and their notes about handles stay true (C130); the
code names the first missing parameter (C131) and the stored error agrees with the code (C132);
failed calls leave the handles usable (C133); every handle can be released and nothing else releases
it (C134).  The exceptions of the code (`unguarded`, `misnamed`, `mistyped`) are part of the
statements, and for each there is a theorem saying what goes wrong.
-/

set_option linter.unusedVariables false
set_option linter.unusedSimpArgs false

namespace Verif.FFI

/-! ## C129: missing arguments -/

/-- The codes named in the macros are error codes. -/
theorem complaint_ne_success (f : Fn) (j : Nat) : complaint f j ≠ .success := by
  have h : ∀ n, codeOfParam n ≠ .success := by
    intro n; unfold codeOfParam; split <;> simp
  unfold complaint
  cases hm : misnamed f j with
  | none => exact h j
  | some c =>
    have : ∀ c, misnamed f j = some c → c ≠ .success := by
      intro c hc
      unfold misnamed at hc
      split at hc <;> simp at hc <;> subst hc <;> simp
    exact this c hm

/-- C129 (except for unguarded out pointers and `..._delta_to_json`): a correct call in which a
required argument is missing returns an error code, writes nothing, and leaves every object as it
is; only the stored error changes. -/
theorem missing_refused_partial (c : Call) (st : State)
    (hf : c.f ≠ .ursa_cl_revocation_registry_delta_to_json)
    (hv : Valid st.heap (sig c.f).params c.args)
    (hm : ∃ j ∈ missing 1 (sig c.f).params c.args, j ∉ unguarded c.f) :
    ∃ code k, code ≠ .success ∧
      c.outcome st = .returned code [] { heap := st.heap, lastErr := some k } := by
  obtain ⟨j, hj, hu⟩ := hm
  cases hl : missed (unguarded c.f) (missing 1 (sig c.f).params c.args) with
  | nil =>
    have : j ∈ missed (unguarded c.f) (missing 1 (sig c.f).params c.args) := by
      simp [missed, hj, hu]
    rw [hl] at this
    simp at this
  | cons j' js =>
    obtain ⟨k, -, h⟩ := call_refused (core := c.core) (addr := c.addr) hf hv hl
    exact ⟨_, k, complaint_ne_success _ _, h⟩

/-- C129 for the 111 functions that check all their pointers: any missing argument is refused. -/
theorem missing_refused (c : Call) (st : State)
    (hf : c.f ≠ .ursa_cl_revocation_registry_delta_to_json) (hu : unguarded c.f = [])
    (hv : Valid st.heap (sig c.f).params c.args) (hm : ¬ Complete c.f c.args) :
    ∃ code k, code ≠ .success ∧
      c.outcome st = .returned code [] { heap := st.heap, lastErr := some k } := by
  refine missing_refused_partial c st hf hv ?_
  cases hl : missing 1 (sig c.f).params c.args with
  | nil => exact absurd hl hm
  | cons j js => exact ⟨j, by simp, by simp [hu]⟩

/-- The exceptions of C129: for eight of the nine functions with an unguarded out pointer (the ninth,
which merges deltas, is treated below), a call that lacks nothing else writes through a null pointer
when the library succeeds. -/
theorem unguarded_undefined (c : Call) (st : State) (present : Bool)
    (hf : mistyped c.f = false) (hv : Valid st.heap (sig c.f).params c.args)
    (hm : missing 1 (sig c.f).params c.args ≠ [])
    (hu : ∀ j ∈ missing 1 (sig c.f).params c.args, j ∈ unguarded c.f)
    (hc : c.core = .ok present) : c.outcome st = .undefined := by
  have hl : missed (unguarded c.f) (missing 1 (sig c.f).params c.args) = [] := by
    simpa [missed] using hu
  have h := call_proceeds (core := c.core) (addr := c.addr) hf hv hl
  have hcore : ∃ b, c.f.core c.core = .ok b := by
    unfold Fn.core; split
    · exact ⟨_, hc⟩
    · exact ⟨_, rfl⟩
  obtain ⟨b, hb⟩ := hcore
  have hn : ¬ Complete c.f c.args := hm
  simp only [hb, hn, if_false] at h
  exact h

/-- The same for the function that merges deltas. -/
theorem merge_unguarded_undefined (st : State) (a b : Nat) (hab : a ≠ b) (present : Bool)
    (addr : Nat → Nat)
    (ha : st.heap a = some .revocationRegistryDelta) (hb : st.heap b = some .revocationRegistryDelta) :
    (Call.mk .ursa_cl_issuer_merge_revocation_registry_deltas
      [.handle (some a), .handle (some b), .out false] (.ok present) addr).outcome st = .undefined := by
  have hba : b ≠ a := fun h => hab h.symm
  simp [Call.outcome, sig, Sig.call, runChecks, Check.run, deref, ha, hb, runDerefs, aliased, hba,
    runTakes, runOuts]

/-- Null pointers inside an array are not detected: they are dereferenced. -/
theorem null_element_undefined (st : State) (core : Core) (addr : Nat → Nat)
    (xs : List (Option Nat)) (n : Nat) (hn : n ≤ xs.length) (h : none ∈ xs.take n)
    (hx : ∀ a, some a ∈ xs.take n → st.heap a = some .signature) :
    (Call.mk .ursa_bls_multi_signature_new [.arr (some xs), .num n, .out true] core addr).outcome st =
      .undefined := by
  have key : ∀ l : List (Option Nat), none ∈ l → (∀ a, some a ∈ l → st.heap a = some .signature) →
      derefAll st.heap .signature l = .undefined := by
    intro l
    induction l with
    | nil => intro h; simp at h
    | cons x l ih =>
      intro h h'
      cases x with
      | none => rfl
      | some a =>
        simp [derefAll, h' a (by simp), ih (by simpa using h) (fun a ha => h' a (by simp [ha]))]
  have h0 : n ≠ 0 := by rintro rfl; simp at h
  simp [Call.outcome, sig, Sig.call, runChecks, Check.run, h0, hn, key _ h hx]

/-! ## C130: no undefined behaviour -/

/-- A call that avoids the exceptions: the function treats pointers by their documented type, and
the out pointers that it does not check are not null. -/
def Careful (c : Call) : Prop :=
  mistyped c.f = false ∧ ∀ j ∈ missing 1 (sig c.f).params c.args, j ∉ unguarded c.f

/-- A correct and careful call is not undefined, and if it returns the caller's notes are true. -/
theorem call_safe (c : Call) (st : State) (hc : Careful c)
    (hv : Valid st.heap (sig c.f).params c.args) :
    c.outcome st ≠ .undefined ∧
    ∀ code ws st', c.outcome st = .returned code ws st' →
      st'.heap = noted c.f c.args ws st.heap := by
  obtain ⟨hf, hu⟩ := hc
  cases hl : missing 1 (sig c.f).params c.args with
  | nil =>
    have hcomp : Complete c.f c.args := hl
    have hm : missed (unguarded c.f) (missing 1 (sig c.f).params c.args) = [] := by
      rw [hl]; rfl
    have h := call_proceeds (core := c.core) (addr := c.addr) hf hv hm
    unfold Call.outcome
    rw [h]
    cases c.f.core c.core with
    | panic => exact ⟨by simp, by simp⟩
    | err k =>
      refine ⟨by simp, ?_⟩
      intro code ws st' e
      simp only [Outcome.returned.injEq] at e
      obtain ⟨-, rfl, rfl⟩ := e
      rfl
    | ok present =>
      simp only [hcomp, if_true]
      refine ⟨by simp, ?_⟩
      intro code ws st' e
      simp only [Outcome.returned.injEq] at e
      obtain ⟨-, rfl, rfl⟩ := e
      rfl
  | cons j js =>
    have hf' : c.f ≠ .ursa_cl_revocation_registry_delta_to_json := by
      intro e; rw [e] at hf; simp [mistyped] at hf
    obtain ⟨code, k, -, h⟩ := missing_refused_partial c st hf' hv
      ⟨j, by rw [hl]; simp, hu j (by rw [hl]; simp)⟩
    rw [h]
    refine ⟨by simp, ?_⟩
    intro code' ws st' e
    simp only [Outcome.returned.injEq] at e
    obtain ⟨-, rfl, rfl⟩ := e
    have hn : ¬ Complete c.f c.args := by unfold Complete; rw [hl]; simp
    simp [noted, noteRelease, noteWrites, hn]

/-- C130: after any sequence of correct and careful calls, whatever the library and the allocator
did, the objects alive are exactly those the caller has noted, with the types he has noted, and the
next correct and careful call is not undefined. -/
theorem run_safe_partial {st st' : State} {view view' : View} {cs : List Call}
    (hr : Run st view cs st' view') (hc : ∀ c ∈ cs, Careful c) (h0 : st.heap = view) :
    st'.heap = view' ∧
      ∀ c, Careful c → Valid view' (sig c.f).params c.args → c.outcome st' ≠ .undefined := by
  induction hr with
  | nil st view =>
    refine ⟨h0, fun c hc hv => (call_safe c st hc ?_).1⟩
    rw [h0]; exact hv
  | step st st1 st2 view view2 c cs code ws hv ho _ ih =>
    have h1 := (call_safe c st (hc c (by simp)) (by rw [h0]; exact hv)).2 _ _ _ ho
    exact ih (fun c hc' => hc c (by simp [hc'])) (by rw [h1, h0])

/-- A program starts without objects and without notes. -/
theorem run_from_start_partial {e : Option Kind} {st' : State} {view' : View} {cs : List Call}
    (hr : Run ⟨fun _ => none, e⟩ (fun _ => none) cs st' view') (hc : ∀ c ∈ cs, Careful c) :
    st'.heap = view' ∧
      ∀ c, Careful c → Valid view' (sig c.f).params c.args → c.outcome st' ≠ .undefined :=
  run_safe_partial hr hc rfl

/-- The exceptions of C130, 1: serializing any registry delta is undefined. -/
theorem delta_to_json_undefined (st : State) (a : Nat) (b : Bool) (core : Core) (addr : Nat → Nat)
    (ha : st.heap a = some .revocationRegistryDelta) :
    (Call.mk .ursa_cl_revocation_registry_delta_to_json [.handle (some a), .out b] core addr).outcome
      st = .undefined := by
  simp [Call.outcome, sig, Sig.call, runChecks, Check.run, deref, ha]

/-- The exceptions of C130, 2: a delta read from JSON is not a delta; to release it is undefined. -/
theorem delta_from_json_undefined (st : State) (n : Nat) (present : Bool) (core : Core)
    (addr addr' : Nat → Nat) :
    ∃ st', (Call.mk .ursa_cl_revocation_registry_delta_from_json
        [.str (.text (n + 1)), .out true] (.ok present) addr).outcome st =
          .returned .success [(1, some (addr 1))] st' ∧
      (Call.mk .ursa_cl_revocation_registry_delta_free [.handle (some (addr 1))] core addr').outcome
        st' = .undefined := by
  refine ⟨⟨fun x => if x = addr 1 then some .signatureCorrectnessProof else st.heap x, st.lastErr⟩,
    ?_, ?_⟩
  · simp [Call.outcome, sig, Sig.call, runChecks, Check.run, Arg.isNull, runDerefs, aliased, runTakes,
      runOuts]
  · simp [Call.outcome, sig, Sig.call, runChecks, Check.run, Arg.isNull, runDerefs, aliased, runTakes]

/-- The exceptions of C130, 3: merging a delta with itself is undefined. -/
theorem merge_self_undefined (st : State) (a : Nat) (b : Bool) (core : Core) (addr : Nat → Nat)
    (ha : st.heap a = some .revocationRegistryDelta) :
    (Call.mk .ursa_cl_issuer_merge_revocation_registry_deltas
      [.handle (some a), .handle (some a), .out b] core addr).outcome st = .undefined := by
  simp [Call.outcome, sig, Sig.call, runChecks, Check.run, deref, ha, runDerefs, aliased]

/-- The exceptions of C130, 4: the merged delta handed out is not a delta; to release it is
undefined. -/
theorem merge_result_undefined (st : State) (a b : Nat) (hab : a ≠ b) (present : Bool) (core : Core)
    (addr addr' : Nat → Nat)
    (ha : st.heap a = some .revocationRegistryDelta) (hb : st.heap b = some .revocationRegistryDelta) :
    ∃ st', (Call.mk .ursa_cl_issuer_merge_revocation_registry_deltas
        [.handle (some a), .handle (some b), .out true] (.ok present) addr).outcome st =
          .returned .success [(2, some (addr 2))] st' ∧
      (Call.mk .ursa_cl_revocation_registry_delta_free [.handle (some (addr 2))] core addr').outcome
        st' = .undefined := by
  have hba : b ≠ a := fun h => hab h.symm
  refine ⟨⟨fun x => if x = addr 2 then some .unit else st.heap x, st.lastErr⟩, ?_, ?_⟩
  · simp [Call.outcome, sig, Sig.call, runChecks, Check.run, deref, ha, hb, runDerefs, aliased, hba,
      runTakes, runOuts]
  · simp [Call.outcome, sig, Sig.call, runChecks, Check.run, Arg.isNull, runDerefs, aliased, runTakes]

/-! ## C131: the code names the parameter -/

/-- C131 (with the exceptions `misnamed`): the code returned is that of the first missing parameter
that is checked. -/
theorem refusal_names_first_partial (c : Call) (st : State) (j : Nat) (js : List Nat)
    (hf : c.f ≠ .ursa_cl_revocation_registry_delta_to_json)
    (hv : Valid st.heap (sig c.f).params c.args)
    (hm : (missing 1 (sig c.f).params c.args).filter (fun j => decide (j ∉ unguarded c.f)) = j :: js) :
    ∃ ws st', c.outcome st = .returned ((misnamed c.f j).getD (codeOfParam j)) ws st' := by
  obtain ⟨k, -, h⟩ := call_refused (core := c.core) (addr := c.addr) hf hv hm
  exact ⟨_, _, h⟩

/-- C131 for a function without exceptions. -/
theorem refusal_names_first (c : Call) (st : State) (j : Nat) (js : List Nat)
    (hf : c.f ≠ .ursa_cl_revocation_registry_delta_to_json)
    (hu : unguarded c.f = []) (hn : ∀ n, misnamed c.f n = none)
    (hv : Valid st.heap (sig c.f).params c.args)
    (hm : missing 1 (sig c.f).params c.args = j :: js) :
    ∃ ws st', c.outcome st = .returned (codeOfParam j) ws st' := by
  have h := refusal_names_first_partial c st j js hf hv (by simp [hm, hu])
  rwa [hn j] at h

/-- The numbers: 99 plus the number of the parameter, up to 12. -/
theorem codeOfParam_toNat (j : Nat) (h1 : 1 ≤ j) (h2 : j ≤ 12) :
    (codeOfParam j).toNat = 99 + j := by
  have : j = 1 ∨ j = 2 ∨ j = 3 ∨ j = 4 ∨ j = 5 ∨ j = 6 ∨ j = 7 ∨ j = 8 ∨ j = 9 ∨ j = 10 ∨
      j = 11 ∨ j = 12 := by omega
  rcases this with rfl | rfl | rfl | rfl | rfl | rfl | rfl | rfl | rfl | rfl | rfl | rfl <;> rfl

/-- Distinct codes have distinct numbers. -/
theorem Code.toNat_injective (a b : Code) (h : a.toNat = b.toNat) : a = b := by
  revert h; cases a <;> cases b <;> decide

/-! ## C132: the stored error -/

/-- From a code to a kind and back. -/
theorem ofKind_ofCode (c : Code) (h : c ≠ .success) : Code.ofKind (.ofCode c) = c := by
  cases c <;> first
    | rfl
    | exact absurd rfl h

/-- From a kind to a code and back, except for parameters without a code. -/
theorem ofCode_ofKind (k : Kind) :
    Kind.ofCode (.ofKind k) = k ↔ ∀ n, k = .invalidParam n → 1 ≤ n ∧ n ≤ 12 := by
  cases k with
  | invalidParam n =>
    constructor
    · intro h m hm
      cases hm
      by_contra hn
      have : Code.ofKind (.invalidParam n) = .invalidState := by
        unfold Code.ofKind
        split <;> simp_all
      rw [this] at h
      simp [Kind.ofCode] at h
    · intro h
      obtain ⟨h1, h2⟩ := h n rfl
      have : n = 1 ∨ n = 2 ∨ n = 3 ∨ n = 4 ∨ n = 5 ∨ n = 6 ∨ n = 7 ∨ n = 8 ∨ n = 9 ∨ n = 10 ∨
          n = 11 ∨ n = 12 := by omega
      rcases this with rfl | rfl | rfl | rfl | rfl | rfl | rfl | rfl | rfl | rfl | rfl | rfl <;> rfl
  | _ => simp [Code.ofKind, Kind.ofCode]

/-- No error is reported as success. -/
theorem ofKind_ne_success (k : Kind) : Code.ofKind k ≠ .success := by
  unfold Code.ofKind; split <;> simp

/-- The functions that take an array of handles or of indices. -/
def takesArray (f : Fn) : Bool :=
  (sig f).params.any (fun p => match p with
    | .handles _ => true
    | .u32s => true
    | _ => false)

/-- A macro that refuses, except for arrays, stores the kind of the code it returns. -/
theorem runChecks_kind {heap : Nat → Option Ty} {args : List Arg} :
    ∀ {cs : List Check} {c : Code} {k : Kind},
      (∀ x ∈ cs, (∀ i j t c1 c2, x ≠ .refArray i j t c1 c2) ∧ ∀ i j c1 c2, x ≠ .hashset i j c1 c2) →
      runChecks heap args cs = .refused c k → k = .ofCode c
  | [], c, k, _, h => by simp [runChecks] at h
  | x :: cs, c, k, hx, h => by
    simp only [runChecks] at h
    split at h
    · split at h
      · simp at h
      · rename_i h1 _
        exact runChecks_kind (fun y hy => hx y (by simp [hy])) h
    · have key : ∀ x : Check, (∀ i j t c1 c2, x ≠ .refArray i j t c1 c2) →
          (∀ i j c1 c2, x ≠ .hashset i j c1 c2) → x.run heap args = .refused c k → k = .ofCode c := by
        intro x h1 h2 h
        cases x with
        | refArray i j t c1 c2 => exact absurd rfl (h1 i j t c1 c2)
        | hashset i j c1 c2 => exact absurd rfl (h2 i j c1 c2)
        | _ =>
          simp only [Check.run, deref] at h
          repeat' split at h
          all_goals first
            | (simp at h; done)
            | (simp only [Checked.refused.injEq] at h; rw [← h.1, ← h.2])
      exact key x (hx x (by simp)).1 (hx x (by simp)).2 h

theorem checks_no_array (f : Fn) (h : takesArray f = false) :
    ∀ x ∈ (sig f).checks,
      (∀ i j t c1 c2, x ≠ .refArray i j t c1 c2) ∧ ∀ i j c1 c2, x ≠ .hashset i j c1 c2 := by
  cases f <;> first
    | (exfalso; revert h; decide)
    | (simp [sig])

/-- The codes a macro may return. -/
def Check.codes : Check → List Code
  | .ptr _ c => [c]
  | .ref _ _ c => [c]
  | .mutRef _ _ c => [c]
  | .optRef _ _ => []
  | .bytes _ _ c1 c2 => [c1, c2]
  | .optBytes _ _ c2 => [c2]
  | .refArray _ _ _ c1 c2 => [c1, c2]
  | .hashset _ _ c1 c2 => [c1, c2]
  | .str _ c => [c]

theorem derefAll_not_refused {heap : Nat → Option Ty} {t : Ty} {c : Code} {k : Kind} :
    ∀ l : List (Option Nat), derefAll heap t l ≠ .refused c k
  | [] => by simp [derefAll]
  | none :: _ => by simp [derefAll]
  | some a :: l => by
    have ih := derefAll_not_refused (heap := heap) (t := t) (c := c) (k := k) l
    simp only [derefAll]
    split
    · split
      · simp
      · exact ih
    · simp

theorem runChecks_codes {heap : Nat → Option Ty} {args : List Arg} :
    ∀ {cs : List Check} {c : Code} {k : Kind}, runChecks heap args cs = .refused c k →
      ∃ x ∈ cs, c ∈ x.codes
  | [], c, k, h => by simp [runChecks] at h
  | x :: cs, c, k, h => by
    simp only [runChecks] at h
    split at h
    · split at h
      · simp at h
      · obtain ⟨y, hy, hc⟩ := runChecks_codes h
        exact ⟨y, by simp [hy], hc⟩
    · refine ⟨x, by simp, ?_⟩
      cases x with
      | refArray i j t c1 c2 =>
        simp only [Check.run] at h
        split at h
        · simp only [Checked.refused.injEq] at h; simp [Check.codes, h.1]
        · split at h
          · simp only [Checked.refused.injEq] at h; simp [Check.codes, h.1]
          · split at h
            · exact absurd h (derefAll_not_refused _)
            · simp at h
        · simp at h
      | _ =>
        simp only [Check.run, deref] at h
        repeat' split at h
        all_goals simp_all [Check.codes]

theorem codes_ne_success (f : Fn) : ∀ x ∈ (sig f).checks, Code.success ∉ x.codes := by
  cases f <;> decide

/-- A call that returns, in all cases: it was refused by a macro, or the library reported an error,
or it succeeded. -/
theorem returned_cases {c : Call} {st st' : State} {code : Code} {ws : List (Nat × Option Nat)}
    (h : c.outcome st = .returned code ws st') :
    (∃ k, runChecks st.heap c.args (sig c.f).checks = .refused code k ∧ ws = [] ∧
      st' = { st with lastErr := some k }) ∨
    (∃ k bs, (sig c.f).fallible = true ∧ c.core = .err k ∧ code = .ofKind k ∧ ws = [] ∧
      st'.lastErr = some k ∧ runTakes c.args bs (sig c.f).takes st.heap = some st'.heap) ∨
    (code = .success ∧ st'.lastErr = st.lastErr ∧ ∃ bs heap present,
      runTakes c.args bs (sig c.f).takes st.heap = some heap ∧
      runOuts c.args c.addr present (sig c.f).outs heap = some (ws, st'.heap)) := by
  unfold Call.outcome Sig.call at h
  split at h
  · rename_i c' k hc
    simp only [Outcome.returned.injEq] at h
    obtain ⟨rfl, rfl, rfl⟩ := h
    exact Or.inl ⟨k, hc, rfl, rfl⟩
  · simp at h
  · split at h
    · split at h
      · simp at h
      · split at h
        · simp at h
        · rename_i heap ht
          split at h
          · simp at h
          · rename_i k hk
            simp only [Outcome.returned.injEq] at h
            obtain ⟨rfl, rfl, rfl⟩ := h
            split at hk
            · rename_i hf
              exact Or.inr (Or.inl ⟨k, _, hf, hk, rfl, rfl, rfl, ht⟩)
            · simp at hk
          · split at h
            · simp at h
            · rename_i ws' heap' ho
              simp only [Outcome.returned.injEq] at h
              obtain ⟨rfl, rfl, rfl⟩ := h
              exact Or.inr (Or.inr ⟨rfl, rfl, _, _, _, ht, ho⟩)
    · simp at h

/-- C132 (except for functions with array parameters): whatever the arguments, a call that returns
success leaves the stored error as it was, and any other call writes no handle and stores an error
whose code is the one returned. -/
theorem stored_error_partial (c : Call) (st st' : State) (code : Code) (ws : List (Nat × Option Nat))
    (ha : takesArray c.f = false) (h : c.outcome st = .returned code ws st') :
    (code = .success ∧ st'.lastErr = st.lastErr) ∨
    (code ≠ .success ∧ ws = [] ∧ ∃ k, st'.lastErr = some k ∧ Code.ofKind k = code) := by
  rcases returned_cases h with ⟨k, h1, rfl, rfl⟩ | ⟨k, bs, -, -, rfl, rfl, h2, -⟩ | ⟨rfl, h2, -⟩
  · have hne : code ≠ .success := by
      rintro rfl
      obtain ⟨x, hx, hc⟩ := runChecks_codes h1
      exact codes_ne_success c.f x hx hc
    have := runChecks_kind (checks_no_array c.f ha) h1
    subst this
    exact Or.inr ⟨hne, rfl, _, rfl, ofKind_ofCode code hne⟩
  · exact Or.inr ⟨ofKind_ne_success k, rfl, k, h2, rfl⟩
  · exact Or.inl ⟨rfl, h2⟩

/-- The three functions with array parameters. -/
theorem takesArray_iff (f : Fn) : takesArray f = true ↔
    f = .ursa_bls_multi_signature_new ∨ f = .ursa_bls_verify_multi_sig ∨
      f = .ursa_revocation_registry_delta_from_parts := by
  cases f <;> decide

/-- The exception of C132: for a null array the code says parameter 1, the stored error says
parameter 2. -/
theorem null_array_stored_error (st : State) (n : Nat) (b : Bool) (core : Core) (addr : Nat → Nat) :
    (Call.mk .ursa_bls_multi_signature_new [.arr none, .num n, .out b] core addr).outcome st =
      .returned .param1 [] { st with lastErr := some (.invalidParam 2) } := by
  simp [Call.outcome, sig, Sig.call, runChecks, Check.run, Kind.ofCode]

/-- C132 for all functions, in correct calls: unless the first missing argument is an array, the
stored error is the one for the code returned. -/
theorem stored_error_correct_partial (c : Call) (st : State) (j : Nat) (js : List Nat)
    (hf : c.f ≠ .ursa_cl_revocation_registry_delta_to_json)
    (hv : Valid st.heap (sig c.f).params c.args)
    (hm : (missing 1 (sig c.f).params c.args).filter (fun j => decide (j ∉ unguarded c.f)) = j :: js)
    (ha : ∀ n, j = n + 1 → (sig c.f).params[n]? ≠ some .u32s ∧
      ∀ t, (sig c.f).params[n]? ≠ some (.handles t)) :
    ∃ code k, c.outcome st = .returned code [] { st with lastErr := some k } ∧
      Code.ofKind k = code := by
  obtain ⟨k, hk, h⟩ := call_refused (core := c.core) (addr := c.addr) hf hv hm
  refine ⟨_, k, h, ?_⟩
  rcases hk with rfl | ⟨-, n, hn, hk⟩
  · exact ofKind_ofCode _ (complaint_ne_success _ _)
  · obtain ⟨h1, h2⟩ := ha n (by omega)
    rcases hk with hk | ⟨t, hk⟩
    · exact absurd hk h1
    · exact absurd hk (h2 t)

/-! ## C133: failed calls -/

/-- The functions that drop the object they were given even when the library reports an error. -/
def dropsOnError : Fn → Bool
  | .ursa_cl_credential_schema_builder_finalize => true
  | .ursa_cl_non_credential_schema_builder_finalize => true
  | .ursa_cl_credential_values_builder_finalize => true
  | .ursa_cl_sub_proof_request_builder_finalize => true
  | .ursa_cl_proof_builder_finalize => true
  | .ursa_cl_proof_verifier_verify => true
  | _ => false

theorem takes_fallible (f : Fn) (h : dropsOnError f = false) (hf : (sig f).fallible = true) :
    (sig f).takes = [] := by
  revert h hf; cases f <;> decide

/-- C133 (except for six functions): whatever the arguments, a call that returns an error has
changed no object; every handle the caller holds can be used as before. -/
theorem failed_call_keeps_partial (c : Call) (st st' : State) (code : Code)
    (ws : List (Nat × Option Nat)) (hd : dropsOnError c.f = false) (hne : code ≠ .success)
    (h : c.outcome st = .returned code ws st') :
    st'.heap = st.heap ∧ ws = [] ∧
      ∀ f args, Valid st.heap (sig f).params args → Valid st'.heap (sig f).params args := by
  have key : st'.heap = st.heap ∧ ws = [] := by
    rcases returned_cases h with ⟨k, h1, rfl, rfl⟩ | ⟨k, bs, hf, -, rfl, rfl, -, h2⟩ | ⟨rfl, h2, -⟩
    · exact ⟨rfl, rfl⟩
    · rw [takes_fallible c.f hd hf] at h2
      simp only [runTakes, Option.some.injEq] at h2
      exact ⟨h2.symm, rfl⟩
    · exact absurd rfl hne
  refine ⟨key.1, key.2, ?_⟩
  rw [key.1]; exact fun _ _ h => h

/-- The exceptions of C133: in a correct call of one of the six functions that lacks no argument,
an error of the library is reported and the object is gone all the same. -/
theorem failed_finalize_drops (c : Call) (st : State) (k : Kind) (hd : dropsOnError c.f = true)
    (hv : Valid st.heap (sig c.f).params c.args) (hm : Complete c.f c.args) (hc : c.core = .err k) :
    ∃ a st', c.args[0]? = some (.handle (some a)) ∧ st.heap a ≠ none ∧
      c.outcome st = .returned (.ofKind k) [] st' ∧ st'.heap a = none := by
  have hf : mistyped c.f = false ∧ (sig c.f).fallible = true ∧ releases c.f = true ∧
      unguarded c.f = [] := by
    revert hd; cases c.f <;> decide
  obtain ⟨h1, h2, h3, h4⟩ := hf
  have hm' : missed (unguarded c.f) (missing 1 (sig c.f).params c.args) = [] := by
    rw [show missing 1 (sig c.f).params c.args = [] from hm]; rfl
  have h := call_proceeds (core := c.core) (addr := c.addr) h1 hv hm'
  rcases sig_takes c.f with ⟨-, hr⟩ | ⟨t, -, hp, -, -, -⟩
  · rw [h3] at hr; simp at hr
  obtain ⟨p, ha, hb, hcn⟩ := (valid_known hv 1 0).1 _ hp
  cases p with
  | none =>
    have := hcn rfl
    rw [show missing 1 (sig c.f).params c.args = [] from hm] at this
    simp at this
  | some a =>
    have hcore : c.f.core c.core = .err k := by simp [Fn.core, h2, hc]
    simp only [hcore] at h
    refine ⟨a, _, ha, by simp [hb a rfl], h, ?_⟩
    simp [noteRelease, h3, hm, ha]

/-! ## C134: releasing -/

/-- C134, first half: for every type that the interface hands out there is a function documented to
release it; `noted` (C130) says that it does, and in a correct, complete call the object is gone
unless the library panics. -/
theorem every_type_released (f : Fn) (i : Nat) (t : Ty)
    (h : (sig f).params[i]? = some (.outHandle t)) :
    ∃ g, releases g = true ∧ (sig g).params[0]? = some (.handle t) := by
  have key : ∀ p ∈ (sig f).params, ∀ t, p = .outHandle t →
      ∃ g, releases g = true ∧ (sig g).params[0]? = some (.handle t) := by
    have types : ∀ t : Ty, t ≠ .unit → ∃ g, releases g = true ∧ (sig g).params[0]? = some (.handle t) := by
      intro t ht
      cases t
      case unit => exact absurd rfl ht
      case blindedCredentialSecrets => exact ⟨.ursa_cl_blinded_credential_secrets_free, rfl, rfl⟩
      case blindedCredentialSecretsCorrectnessProof =>
        exact ⟨.ursa_cl_blinded_credential_secrets_correctness_proof_free, rfl, rfl⟩
      case credentialKeyCorrectnessProof =>
        exact ⟨.ursa_cl_credential_key_correctness_proof_free, rfl, rfl⟩
      case credentialPrivateKey => exact ⟨.ursa_cl_credential_private_key_free, rfl, rfl⟩
      case credentialPublicKey => exact ⟨.ursa_cl_credential_public_key_free, rfl, rfl⟩
      case credentialSchema => exact ⟨.ursa_cl_credential_schema_free, rfl, rfl⟩
      case credentialSchemaBuilder => exact ⟨.ursa_cl_credential_schema_builder_finalize, rfl, rfl⟩
      case credentialSecretsBlindingFactors =>
        exact ⟨.ursa_cl_credential_secrets_blinding_factors_free, rfl, rfl⟩
      case credentialSignature => exact ⟨.ursa_cl_credential_signature_free, rfl, rfl⟩
      case credentialValues => exact ⟨.ursa_cl_credential_values_free, rfl, rfl⟩
      case credentialValuesBuilder => exact ⟨.ursa_cl_credential_values_builder_finalize, rfl, rfl⟩
      case generator => exact ⟨.ursa_bls_generator_free, rfl, rfl⟩
      case masterSecret => exact ⟨.ursa_cl_master_secret_free, rfl, rfl⟩
      case multiSignature => exact ⟨.ursa_bls_multi_signature_free, rfl, rfl⟩
      case nonCredentialSchema => exact ⟨.ursa_cl_non_credential_schema_free, rfl, rfl⟩
      case nonCredentialSchemaBuilder =>
        exact ⟨.ursa_cl_non_credential_schema_builder_finalize, rfl, rfl⟩
      case nonce => exact ⟨.ursa_cl_nonce_free, rfl, rfl⟩
      case proof => exact ⟨.ursa_cl_proof_free, rfl, rfl⟩
      case proofBuilder => exact ⟨.ursa_cl_proof_builder_finalize, rfl, rfl⟩
      case proofOfPossession => exact ⟨.ursa_bls_pop_free, rfl, rfl⟩
      case proofVerifier => exact ⟨.ursa_cl_proof_verifier_verify, rfl, rfl⟩
      case revocationKeyPrivate => exact ⟨.ursa_cl_revocation_key_private_free, rfl, rfl⟩
      case revocationKeyPublic => exact ⟨.ursa_cl_revocation_key_public_free, rfl, rfl⟩
      case revocationRegistry => exact ⟨.ursa_cl_revocation_registry_free, rfl, rfl⟩
      case revocationRegistryDelta => exact ⟨.ursa_cl_revocation_registry_delta_free, rfl, rfl⟩
      case revocationTailsGenerator => exact ⟨.ursa_cl_revocation_tails_generator_free, rfl, rfl⟩
      case signKey => exact ⟨.ursa_bls_sign_key_free, rfl, rfl⟩
      case signature => exact ⟨.ursa_bls_signature_free, rfl, rfl⟩
      case signatureCorrectnessProof => exact ⟨.ursa_cl_signature_correctness_proof_free, rfl, rfl⟩
      case subProofRequest => exact ⟨.ursa_cl_sub_proof_request_free, rfl, rfl⟩
      case subProofRequestBuilder => exact ⟨.ursa_cl_sub_proof_request_builder_finalize, rfl, rfl⟩
      case tail => exact ⟨.ursa_cl_tail_free, rfl, rfl⟩
      case verKey => exact ⟨.ursa_bls_ver_key_free, rfl, rfl⟩
      case witness => exact ⟨.ursa_cl_witness_free, rfl, rfl⟩
    have nounit : ∀ p ∈ (sig f).params, p ≠ .outHandle .unit := by cases f <;> decide
    intro p hp t ht
    exact types t (by rintro rfl; exact nounit p hp ht)
  exact key _ (List.mem_of_getElem? h) t rfl

/-- The handles written are those of the allocator. -/
theorem runOuts_addr {args : List Arg} {addr : Nat → Nat} {present : Bool} :
    ∀ {os : List (Nat × Out)} {heap heap' : Nat → Option Ty} {ws : List (Nat × Option Nat)},
      runOuts args addr present os heap = some (ws, heap') →
      ∀ w ∈ ws, ∀ a, w.2 = some a → addr w.1 = a
  | [], heap, heap', ws, h => by
    simp only [runOuts, Option.some.injEq, Prod.mk.injEq] at h
    obtain ⟨rfl, -⟩ := h
    simp
  | (i, o) :: os, heap, heap', ws, h => by
    simp only [runOuts] at h
    split at h
    · split at h
      · exact runOuts_addr h
      · rw [Option.map_eq_some_iff] at h
        obtain ⟨r, hr, e⟩ := h
        obtain ⟨rfl, rfl⟩ := Prod.mk.inj e
        intro w hw a ha
        rcases List.mem_cons.1 hw with rfl | hw
        · simpa using ha
        · exact runOuts_addr (heap' := r.2) (ws := r.1) hr w hw a ha
      · split at h
        · rw [Option.map_eq_some_iff] at h
          obtain ⟨r, hr, e⟩ := h
          obtain ⟨rfl, rfl⟩ := Prod.mk.inj e
          intro w hw a ha
          rcases List.mem_cons.1 hw with rfl | hw
          · simpa using ha
          · exact runOuts_addr (heap' := r.2) (ws := r.1) hr w hw a ha
        · rw [Option.map_eq_some_iff] at h
          obtain ⟨r, hr, e⟩ := h
          obtain ⟨rfl, rfl⟩ := Prod.mk.inj e
          intro w hw a ha
          rcases List.mem_cons.1 hw with rfl | hw
          · simp at ha
          · exact runOuts_addr (heap' := r.2) (ws := r.1) hr w hw a ha
    · simp at h

theorem noteWrites_none {ps : List Param} {a : Nat} :
    ∀ {ws : List (Nat × Option Nat)} {view : View}, (∀ w ∈ ws, w.2 ≠ some a) → view a = none →
      noteWrites ps ws view a = none
  | [], view, _, h => h
  | (i, none) :: ws, view, hw, h => by
    simp only [noteWrites]
    exact noteWrites_none (fun w h' => hw w (by simp [h'])) h
  | (i, some b) :: ws, view, hw, h => by
    have hb : a ≠ b := fun e => hw (i, some b) (by simp) (by simp [e])
    simp only [noteWrites]
    have h1 : ∀ t, noteWrites ps ws (fun x => if x = b then some t else view x) a = none :=
      fun t => noteWrites_none (fun w h' => hw w (by simp [h'])) (by simp [hb, h])
    have h2 : noteWrites ps ws view a = none := noteWrites_none (fun w h' => hw w (by simp [h'])) h
    generalize ps[i]? = q
    rcases q with _ | q
    · exact h2
    · cases q <;> first
        | exact h2
        | exact h1 _

/-- Objects at other addresses than those the allocator gives stay. -/
theorem runOuts_keeps {args : List Arg} {addr : Nat → Nat} {present : Bool} {a : Nat}
    (hfresh : ∀ i, addr i ≠ a) :
    ∀ {os : List (Nat × Out)} {heap heap' : Nat → Option Ty} {ws : List (Nat × Option Nat)},
      runOuts args addr present os heap = some (ws, heap') → heap' a = heap a
  | [], heap, heap', ws, h => by
    simp only [runOuts, Option.some.injEq, Prod.mk.injEq] at h
    rw [h.2]
  | (i, o) :: os, heap, heap', ws, h => by
    have hi : a ≠ addr i := fun e => hfresh i e.symm
    simp only [runOuts] at h
    split at h
    · split at h
      · exact runOuts_keeps hfresh h
      · rw [Option.map_eq_some_iff] at h
        obtain ⟨r, hr, e⟩ := h
        obtain ⟨-, rfl⟩ := Prod.mk.inj e
        rw [runOuts_keeps hfresh (heap' := r.2) (ws := r.1) hr]
        simp [hi]
      · split at h
        · rw [Option.map_eq_some_iff] at h
          obtain ⟨r, hr, e⟩ := h
          obtain ⟨-, rfl⟩ := Prod.mk.inj e
          rw [runOuts_keeps hfresh (heap' := r.2) (ws := r.1) hr]
          simp [hi]
        · rw [Option.map_eq_some_iff] at h
          obtain ⟨r, hr, e⟩ := h
          obtain ⟨-, rfl⟩ := Prod.mk.inj e
          exact runOuts_keeps hfresh (heap' := r.2) (ws := r.1) hr
    · simp at h

/-- C134: a correct and complete call of a releasing function removes the object, whatever the
library says, unless it panics. -/
theorem release_releases (c : Call) (st st' : State) (code : Code) (ws : List (Nat × Option Nat))
    (a : Nat) (hr : releases c.f = true) (hv : Valid st.heap (sig c.f).params c.args)
    (hm : Complete c.f c.args) (ha : c.args[0]? = some (.handle (some a)))
    (hfresh : ∀ i, c.addr i ≠ a) (h : c.outcome st = .returned code ws st') :
    st'.heap a = none := by
  have hmt : mistyped c.f = false := by revert hr; cases c.f <;> decide
  have hc : Careful c := ⟨hmt, by
    rw [show missing 1 (sig c.f).params c.args = [] from hm]; simp⟩
  have h1 := (call_safe c st hc hv).2 _ _ _ h
  have hw : ∀ w ∈ ws, w.2 ≠ some a := by
    rcases returned_cases h with ⟨k, -, rfl, -⟩ | ⟨k, bs, -, -, -, rfl, -, -⟩ | ⟨-, -, bs, heap, pr, -, ho⟩
    · simp
    · simp
    · have hout := runOuts_addr ho
      intro w hw e
      exact hfresh _ (hout w hw a e)
  rw [h1, noted]
  have hrel : noteRelease c.f c.args st.heap a = none := by
    simp [noteRelease, hr, hm, ha]
  exact noteWrites_none hw hrel

/-- C134, second half: no other function releases anything, whatever its arguments: if it returns,
an object is still there (the allocator gives addresses that are not in use). -/
theorem others_keep (c : Call) (st st' : State) (code : Code) (ws : List (Nat × Option Nat))
    (a : Nat) (t : Ty) (hr : releases c.f = false) (ha : st.heap a = some t)
    (hfresh : ∀ i, st.heap (c.addr i) = none) (h : c.outcome st = .returned code ws st') :
    st'.heap a = some t := by
  have hfr : ∀ i, c.addr i ≠ a := by
    intro i e
    have := hfresh i
    rw [e, ha] at this
    simp at this
  have htk : (sig c.f).takes = [] := by
    rcases sig_takes c.f with ⟨h1, -⟩ | ⟨t, -, -, h2, -⟩
    · exact h1
    · rw [hr] at h2; simp at h2
  rcases returned_cases h with ⟨k, -, -, rfl⟩ | ⟨k, bs, -, -, -, -, -, h2⟩ |
    ⟨-, -, bs, heap, pr, h2, ho⟩
  · exact ha
  · rw [htk] at h2
    simp only [runTakes, Option.some.injEq] at h2
    rw [← h2]; exact ha
  · rw [htk] at h2
    simp only [runTakes, Option.some.injEq] at h2
    rw [runOuts_keeps hfr ho, ← h2]; exact ha

/-- And a releasing function removes nothing but the object it was given. -/
theorem release_keeps_others (c : Call) (st st' : State) (code : Code)
    (ws : List (Nat × Option Nat)) (a : Nat) (t : Ty) (ha : st.heap a = some t)
    (hfresh : ∀ i, st.heap (c.addr i) = none) (h0 : c.args[0]? ≠ some (.handle (some a)))
    (h : c.outcome st = .returned code ws st') : st'.heap a = some t := by
  have hfr : ∀ i, c.addr i ≠ a := by
    intro i e
    have := hfresh i
    rw [e, ha] at this
    simp at this
  have htk : ∀ bs heap, runTakes c.args bs (sig c.f).takes st.heap = some heap → heap a = some t := by
    intro bs heap h2
    rcases sig_takes c.f with ⟨h1, -⟩ | ⟨t', h1, -⟩
    · rw [h1] at h2
      simp only [runTakes, Option.some.injEq] at h2
      rw [← h2]; exact ha
    · rw [h1] at h2
      simp only [runTakes] at h2
      split at h2
      · rename_i b hb
        split at h2
        · simp only [Option.some.injEq] at h2
          have hab : a ≠ b := by rintro rfl; exact h0 hb
          rw [← h2]
          simp [hab, ha]
        · simp at h2
      · simp at h2
  rcases returned_cases h with ⟨k, -, -, rfl⟩ | ⟨k, bs, -, -, -, -, -, h2⟩ |
    ⟨-, -, bs, heap, pr, h2, ho⟩
  · exact ha
  · exact htk _ _ h2
  · rw [runOuts_keeps hfr ho]; exact htk _ _ h2

/-- A handle that was released must not be used again: to release it a second time is undefined. -/
theorem double_free_undefined (st : State) (a : Nat) (core : Core) (addr : Nat → Nat)
    (ha : st.heap a = none) :
    (Call.mk .ursa_cl_nonce_free [.handle (some a)] core addr).outcome st = .undefined := by
  simp [Call.outcome, sig, Sig.call, runChecks, Check.run, Arg.isNull, runDerefs, aliased, runTakes, ha]

/-! ## Examples -/

/-- A program: create a nonce, serialize it, release it. -/
def demo : List Call :=
  [⟨.ursa_cl_new_nonce, [.out true], .ok true, fun _ => 7⟩,
   ⟨.ursa_cl_nonce_to_json, [.handle (some 7), .out true], .ok true, fun _ => 0⟩,
   ⟨.ursa_cl_nonce_free, [.handle (some 7)], .ok true, fun _ => 0⟩]

/-- The program runs, carefully, and the nonce is gone at the end. -/
example : ∃ st' view', Run ⟨fun _ => none, none⟩ (fun _ => none) demo st' view' ∧
    (∀ c ∈ demo, Careful c) ∧ view' 7 = none := by
  refine ⟨_, _, Run.step _ _ _ _ _ _ _ _ _ ?_ rfl
    (Run.step _ _ _ _ _ _ _ _ _ ?_ rfl (Run.step _ _ _ _ _ _ _ _ _ ?_ rfl (Run.nil _ _))), ?_, ?_⟩
  · simp [Valid, sig]
  · simp [Valid, sig, noted, noteWrites, noteRelease, releases]
  · simp [Valid, sig, noted, noteWrites, noteRelease, releases]
  · simp [demo, Careful, mistyped, missing, sig]
  · rfl

/-- A null handle is refused, naming parameter 1. -/
example (st : State) : ∃ k, (Call.mk .ursa_cl_nonce_to_json [.handle none, .out true] (.ok true)
    (fun _ => 0)).outcome st = .returned .param1 [] { st with lastErr := some k } :=
  ⟨.invalidParam 1, rfl⟩

/-- The hypotheses of `missing_refused` and `refusal_names_first` are met: the second parameter of
a serialization is null. -/
example (st : State) (h : st.heap 7 = some .nonce) :
    Valid st.heap (sig .ursa_cl_nonce_to_json).params [.handle (some 7), .out false] ∧
      missing 1 (sig .ursa_cl_nonce_to_json).params [.handle (some 7), .out false] = [2] ∧
      unguarded .ursa_cl_nonce_to_json = [] := by
  simp [Valid, sig, h, missing, unguarded]

/-- The hypotheses of `unguarded_undefined` are met: a key is generated into a null pointer. -/
example (st : State) : (Call.mk .ursa_bls_sign_key_new [.buf none, .num 0, .out false] (.ok true)
    (fun _ => 0)).outcome st = .undefined :=
  unguarded_undefined _ st true rfl (by simp [Valid, sig]) (by simp [missing, sig])
    (by simp [missing, sig, unguarded]) rfl

/-- The hypotheses of `failed_finalize_drops` are met. -/
example (st : State) (h : st.heap 3 = some .credentialSchemaBuilder) :
    ∃ a st', (Call.mk .ursa_cl_credential_schema_builder_finalize [.handle (some 3), .out true]
        (.err .invalidState) (fun _ => 9)).outcome st = .returned .invalidState [] st' ∧
      st'.heap a = none ∧ st.heap a ≠ none := by
  obtain ⟨a, st', -, h1, h2, h3⟩ := failed_finalize_drops
    ⟨.ursa_cl_credential_schema_builder_finalize, [.handle (some 3), .out true],
      .err .invalidState, fun _ => 9⟩ st .invalidState rfl (by simp [Valid, sig, h])
      (by simp [Complete, missing, sig]) rfl
  exact ⟨a, st', h2, h3, h1⟩

end Verif.FFI
