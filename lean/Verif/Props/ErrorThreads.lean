import Verif.Props.Errors
set_option linter.unusedVariables false
set_option linter.unusedSimpArgs false
/-!
# The stored error of each thread (C184)
-/
namespace Verif.Errors
open FFI (Kind Code)
open BN (Text)

/-- what a thread does: a call that fails (the allocator gives the address `a` to the new text), the end of the thread.  Other calls do not touch the stored error. -/
inductive Op where
  | fail (bt : Option Text) (e : Error) (a : Nat)
  | exit

/-- The histories the program can have, with the memory after them: in each step one thread does something; the allocator never gives out an address in use. -/
inductive Hist : List (Nat × Op) → Mem → Prop
  | nil : Hist [] Mem.empty
  | fail {h : List (Nat × Op)} {m m' : Mem} (H : Hist h m) (t : Nat) (bt : Option Text) (e : Error) (a : Nat) (fresh : m.heap a = none)
      (st : m.setError t bt e a = .ok m') : Hist (h ++ [(t, .fail bt e a)]) m'
  | exit {h : List (Nat × Op)} {m : Mem} (H : Hist h m) (t : Nat) : Hist (h ++ [(t, .exit)]) (m.exit t)

/-- the last error of a thread: the specification -/
def lastFail (t : Nat) : List (Nat × Op) → Option (Option Text × Error)
  | [] => none
  | h => h.foldl (fun acc o => if o.1 = t then (match o.2 with | .fail bt e _ => some (bt, e) | .exit => none) else acc) none

theorem lastFail_snoc (t : Nat) (h : List (Nat × Op)) (o : Nat × Op) :
    lastFail t (h ++ [o]) = if o.1 = t then (match o.2 with | .fail bt e _ => some (bt, e) | .exit => none) else lastFail t h := by
  have : ∀ l, lastFail t l = l.foldl (fun acc o => if o.1 = t then (match o.2 with | .fail bt e _ => some (bt, e) | .exit => none) else acc) none := by
    intro l; cases l <;> rfl
  rw [this, this, List.foldl_append]
  rfl

/-- what holds of the memory -/
structure Mem.Good (m : Mem) (h : List (Nat × Op)) : Prop where
  live : ∀ a, m.heap a ≠ none ↔ ∃ t, m.slot t = some a
  own : ∀ t t' a, m.slot t = some a → m.slot t' = some a → t = t'
  text : ∀ t, match lastFail t h with
    | none => m.slot t = none
    | some (bt, e) => ∃ a, m.slot t = some a ∧ m.heap a = some (jsonText bt e.text ++ [nul])

theorem setError_ok {m m' : Mem} {t : Nat} {bt : Option Text} {e : Error} {a : Nat} (st : m.setError t bt e a = .ok m') :
    m' = { slot := fun x => if x = t then some a else m.slot x, heap := fun x => if x = a then some (jsonText bt e.text ++ [nul]) else m.dropOld t x } := by
  simp only [Mem.setError, cstring, if_neg (nul_notMem bt e.text), Res.ok_bind, Res.pure_eq, Res.ok.injEq] at st
  exact st.symm

theorem dropOld_of {m : Mem} {h : List (Nat × Op)} (g : m.Good h) (t a : Nat) : m.dropOld t a ≠ none ↔ ∃ t', t' ≠ t ∧ m.slot t' = some a := by
  simp only [Mem.dropOld]
  by_cases hs : m.slot t = some a
  · rw [if_pos hs]
    simp only [ne_eq, not_true_eq_false, false_iff, not_exists, not_and]
    intro t' ht h'
    exact ht (g.own _ _ _ h' hs)
  · rw [if_neg hs, g.live]
    constructor
    · rintro ⟨t', h'⟩
      exact ⟨t', by rintro rfl; exact hs h', h'⟩
    · rintro ⟨t', -, h'⟩; exact ⟨t', h'⟩

theorem Hist.good {h : List (Nat × Op)} {m : Mem} (H : Hist h m) : m.Good h := by
  induction H with
  | nil => exact ⟨by simp [Mem.empty], by simp [Mem.empty], fun t => rfl⟩
  | @fail h m m' H t bt e a fresh st ih =>
    have hne : ∀ t', m.slot t' ≠ some a := fun t' h' => (ih.live a).2 ⟨t', h'⟩ fresh
    rw [setError_ok st]
    refine ⟨fun b => ?_, fun t1 t2 b h1 h2 => ?_, fun t1 => ?_⟩
    · simp only
      by_cases hb : b = a
      · subst hb; rw [if_pos rfl]; simp only [ne_eq, reduceCtorEq, not_false_eq_true, true_iff]; exact ⟨t, by rw [if_pos rfl]⟩
      · rw [if_neg hb, dropOld_of ih]
        constructor
        · rintro ⟨t', h1, h2⟩; exact ⟨t', by rw [if_neg h1]; exact h2⟩
        · rintro ⟨t', h1⟩
          by_cases ht : t' = t
          · rw [if_pos ht] at h1; simp only [Option.some.injEq] at h1; exact absurd h1.symm hb
          · rw [if_neg ht] at h1; exact ⟨t', ht, h1⟩
    · simp only at h1 h2
      by_cases c1 : t1 = t <;> by_cases c2 : t2 = t
      · rw [c1, c2]
      · rw [if_pos c1] at h1; rw [if_neg c2] at h2; simp only [Option.some.injEq] at h1; subst h1; exact absurd h2 (hne _)
      · rw [if_neg c1] at h1; rw [if_pos c2] at h2; simp only [Option.some.injEq] at h2; subst h2; exact absurd h1 (hne _)
      · rw [if_neg c1] at h1; rw [if_neg c2] at h2; exact ih.own _ _ _ h1 h2
    · rw [lastFail_snoc]
      by_cases c : t = t1
      · subst c
        simp only [if_true]
        exact ⟨a, rfl, if_pos rfl⟩
      · have c' : ¬ t1 = t := fun hh => c hh.symm
        simp only [if_neg c, if_neg c']
        have := ih.text t1
        revert this
        cases lastFail t1 h with
        | none => exact id
        | some p =>
          rintro ⟨b, hb1, hb2⟩
          refine ⟨b, hb1, ?_⟩
          have hba : ¬ b = a := by rintro rfl; exact hne _ hb1
          rw [if_neg hba, Mem.dropOld, if_neg (fun hs => c (ih.own _ _ _ hs hb1))]
          exact hb2
  | @exit h m H t ih =>
    refine ⟨fun b => ?_, fun t1 t2 b h1 h2 => ?_, fun t1 => ?_⟩
    · simp only [Mem.exit]
      rw [dropOld_of ih]
      constructor
      · rintro ⟨t', h1, h2⟩; exact ⟨t', by rw [if_neg h1]; exact h2⟩
      · rintro ⟨t', h1⟩
        by_cases ht : t' = t
        · rw [if_pos ht] at h1; simp at h1
        · rw [if_neg ht] at h1; exact ⟨t', ht, h1⟩
    · simp only [Mem.exit] at h1 h2
      by_cases c1 : t1 = t
      · rw [if_pos c1] at h1; simp at h1
      by_cases c2 : t2 = t
      · rw [if_pos c2] at h2; simp at h2
      rw [if_neg c1] at h1; rw [if_neg c2] at h2
      exact ih.own _ _ _ h1 h2
    · rw [lastFail_snoc]
      by_cases c : t = t1
      · subst c
        simp only [if_true, Mem.exit]
      · have c' : ¬ t1 = t := fun hh => c hh.symm
        simp only [if_neg c, Mem.exit, if_neg c']
        have := ih.text t1
        revert this
        cases lastFail t1 h with
        | none => exact id
        | some p =>
          rintro ⟨b, hb1, hb2⟩
          refine ⟨b, hb1, ?_⟩
          rw [Mem.dropOld, if_neg (fun hs => c (ih.own _ _ _ hs hb1))]
          exact hb2

/-- **C184.** In every history of every number of threads, interleaved in any way, `ursa_get_current_error` called by a thread gives null exactly if no call of that
thread has failed, and otherwise a pointer to a live string that says the error of the last call of that thread that failed; calls of other threads do not matter. -/
theorem own_last_error {h : List (Nat × Op)} {m : Mem} (H : Hist h m) (t : Nat) :
    match lastFail t h with
    | none => m.getError t = none
    | some (bt, e) => ∃ a s, m.getError t = some a ∧ m.heap a = some s ∧ readDocument (cRead s) = some (bt, e.text) := by
  have := H.good.text t
  revert this
  cases lastFail t h with
  | none => exact id
  | some p =>
    rintro ⟨a, h1, h2⟩
    refine ⟨a, _, h1, h2, ?_⟩
    obtain ⟨s, e1, e2, e3⟩ := store_text p.1 p.2
    have : jsonText p.1 p.2.text ++ [nul] = s := by
      rw [cstring, if_neg (nul_notMem _ _)] at e1
      simpa using e1
    rw [this]
    exact e3

/-- a failing call never crashes while it stores its error -/
theorem fail_possible (m : Mem) (t : Nat) (bt : Option Text) (e : Error) (a : Nat) : ∃ m', m.setError t bt e a = .ok m' := by
  simp only [Mem.setError, cstring, if_neg (nul_notMem bt e.text), Res.ok_bind, Res.pure_eq]
  exact ⟨_, rfl⟩

/-- one history continues another: no end of the program in between -/
theorem Hist.tail {h : List (Nat × Op)} {o : Nat × Op} {m' : Mem} (H : Hist (h ++ [o]) m') : ∃ m, Hist h m := by
  generalize hh : h ++ [o] = l at H
  cases H with
  | nil => simp at hh
  | fail H' t bt e a fresh st =>
    obtain ⟨rfl, -⟩ := List.append_inj' hh rfl
    exact ⟨_, H'⟩
  | exit H' t =>
    obtain ⟨rfl, -⟩ := List.append_inj' hh rfl
    exact ⟨_, H'⟩

theorem Hist.unique {h : List (Nat × Op)} : ∀ {m m' : Mem}, Hist h m → Hist h m' → m = m' := by
  induction h using List.reverseRecOn with
  | nil =>
    intro m m' H H'
    have : ∀ {l : List (Nat × Op)} {m : Mem}, Hist l m → l = [] → m = Mem.empty := by
      intro l m H hl
      cases H with
      | nil => rfl
      | fail => simp at hl
      | exit => simp at hl
    rw [this H rfl, this H' rfl]
  | append_singleton h o ih =>
    intro m m' H H'
    have : ∀ {l : List (Nat × Op)} {m : Mem}, Hist l m → l = h ++ [o] → ∃ m0, Hist h m0 ∧
        (match o.2 with | .fail bt e a => m0.setError o.1 bt e a = .ok m | .exit => m = m0.exit o.1) := by
      intro l m H hl
      cases H with
      | nil => simp at hl
      | fail Hx t bt e a fresh st =>
        obtain ⟨h1, h2⟩ := List.append_inj' hl rfl
        simp only [List.cons.injEq, and_true] at h2
        subst h1 h2
        exact ⟨_, Hx, st⟩
      | exit Hx t =>
        obtain ⟨h1, h2⟩ := List.append_inj' hl rfl
        simp only [List.cons.injEq, and_true] at h2
        subst h1 h2
        exact ⟨_, Hx, rfl⟩
    obtain ⟨m0, H0, e⟩ := this H rfl
    obtain ⟨m1, H1, e'⟩ := this H' rfl
    have := ih H0 H1
    subst this
    rcases o with ⟨t, o | o⟩
    · simp only at e e'
      rw [e] at e'
      simpa using e'
    · simp only at e e'
      rw [e, e']

/-- **C184.** A pointer obtained by a thread stays valid, with the same text, as long as that thread neither fails again nor ends: whatever other threads do. -/
theorem pointer_stable (t a : Nat) (s : Text) {h : List (Nat × Op)} (k : List (Nat × Op)) (hk : ∀ o ∈ k, o.1 ≠ t) :
    ∀ {m m' : Mem}, Hist h m → Hist (h ++ k) m' → m.getError t = some a → m.heap a = some s → m'.getError t = some a ∧ m'.heap a = some s := by
  induction k using List.reverseRecOn with
  | nil =>
    intro m m' H H' h1 h2
    rw [List.append_nil] at H'
    rw [← H.unique H']
    exact ⟨h1, h2⟩
  | append_singleton k o ih =>
    intro m m' H H' h1 h2
    rw [← List.append_assoc] at H'
    obtain ⟨m1, H1⟩ := H'.tail
    obtain ⟨i1, i2⟩ := ih (fun o' ho' => hk o' (by simp [ho'])) H H1 h1 h2
    have ho : o.1 ≠ t := hk o (by simp)
    have ho' : ¬ t = o.1 := fun hh => ho hh.symm
    generalize hl : (h ++ k) ++ [o] = l at H'
    cases H' with
    | nil => simp at hl
    | fail H2 t' bt e a' fresh st =>
      obtain ⟨h3, h4⟩ := List.append_inj' hl rfl
      simp only [List.cons.injEq, and_true] at h4
      subst h3 h4
      have := H1.unique H2
      subst this
      rw [setError_ok st]
      simp only [Mem.getError] at i1 ⊢
      have ha : ¬ a = a' := by rintro rfl; rw [fresh] at i2; simp at i2
      simp only at ho'
      rw [if_neg ho', if_neg ha, Mem.dropOld, if_neg (fun hs => ho (H1.good.own _ _ _ hs i1))]
      exact ⟨i1, i2⟩
    | exit H2 t' =>
      obtain ⟨h3, h4⟩ := List.append_inj' hl rfl
      simp only [List.cons.injEq, and_true] at h4
      subst h3 h4
      have := H1.unique H2
      subst this
      simp only [Mem.getError, Mem.exit] at i1 ⊢
      simp only at ho'
      rw [if_neg ho', Mem.dropOld, if_neg (fun hs => ho (H1.good.own _ _ _ hs i1))]
      exact ⟨i1, i2⟩

/-- **C184.** When the thread fails again the old string is freed: the old pointer dangles, and the new one is another. -/
theorem pointer_freed {h : List (Nat × Op)} {m m' : Mem} (H : Hist h m) (t a b : Nat) (bt : Option Text) (e : Error) (ha : m.getError t = some a)
    (fresh : m.heap b = none) (st : m.setError t bt e b = .ok m') : m'.heap a = none ∧ m'.getError t = some b ∧ a ≠ b := by
  have hab : a ≠ b := by
    rintro rfl
    exact (H.good.live a).2 ⟨t, ha⟩ fresh
  rw [setError_ok st]
  refine ⟨?_, by simp [Mem.getError], hab⟩
  simp only [if_neg hab, Mem.dropOld]
  rw [if_pos (show m.slot t = some a from ha)]

/-- **C184.** The same when the thread ends. -/
theorem pointer_freed_exit (m : Mem) (t a : Nat) (ha : m.getError t = some a) : (m.exit t).heap a = none := by
  simp only [Mem.exit, Mem.dropOld]
  rw [if_pos (show m.slot t = some a from ha)]

/-- **C184.** Nothing is leaked: the strings alive are exactly those of the threads that have a stored error, one for each. -/
theorem no_leak {h : List (Nat × Op)} {m : Mem} (H : Hist h m) (a : Nat) : m.heap a ≠ none ↔ ∃! t, m.getError t = some a := by
  rw [H.good.live]
  constructor
  · rintro ⟨t, ht⟩; exact ⟨t, ht, fun t' ht' => H.good.own _ _ _ ht' ht⟩
  · rintro ⟨t, ht, -⟩; exact ⟨t, ht⟩

/-- **C184**: what goes wrong with an old pointer.  Thread 0 fails, keeps the pointer, and fails again; thread 1 fails: its text can be where the pointer of thread 0 points to. -/
theorem stale_pointer_met (e : Error) :
    ∃ m1 m3, Hist [(0, .fail none e 5)] m1 ∧ m1.getError 0 = some 5 ∧
      Hist [(0, .fail none e 5), (0, .fail none e 6), (1, .fail none (errMsg .ioError []) 5)] m3 ∧
      m3.heap 5 = some (jsonText none (errMsg .ioError []).text ++ [nul]) ∧ m3.getError 0 = some 6 ∧ m3.getError 1 = some 5 := by
  obtain ⟨m1, e1⟩ := fail_possible Mem.empty 0 none e 5
  have H1 := Hist.fail Hist.nil 0 none e 5 rfl e1
  have hm1 := setError_ok e1
  obtain ⟨m2, e2⟩ := fail_possible m1 0 none e 6
  have H2 := Hist.fail H1 0 none e 6 (by rw [hm1]; simp [Mem.dropOld, Mem.empty]) e2
  have hm2 := setError_ok e2
  obtain ⟨m3, e3⟩ := fail_possible m2 1 none (errMsg .ioError []) 5
  have H3 := Hist.fail H2 1 none _ 5 (by rw [hm2, hm1]; simp [Mem.dropOld, Mem.empty]) e3
  have hm3 := setError_ok e3
  refine ⟨m1, m3, H1, by rw [hm1]; rfl, H3, by rw [hm3]; rfl, ?_, by rw [hm3]; rfl⟩
  rw [hm3, hm2]
  rfl

end Verif.Errors
