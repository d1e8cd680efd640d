import Verif.Props.FFIBase

/-!
# One call of the C interface

References taken by the macros do not alias, `Box::from_raw` gets a live object, and the boxes
written are those declared.  `call_cases` puts this together: the outcome of every correct call.
-/

set_option linter.unusedVariables false
set_option linter.unusedSimpArgs false

namespace Verif.FFI

/-! ## No aliasing -/

/-- The types of the references that a macro takes. -/
def Check.borrow : Check → Option (Ty × Bool)
  | .ref _ t _ => some (t, false)
  | .mutRef _ t _ => some (t, true)
  | .optRef _ t => some (t, false)
  | .refArray _ _ t _ _ => some (t, false)
  | _ => none

/-- Every reference in the list is to a live object of the type, with that mutability. -/
def Typed (heap : Nat → Option Ty) (tm : Ty × Bool) (bs : List (Nat × Bool)) : Prop :=
  ∀ x ∈ bs, heap x.1 = some tm.1 ∧ x.2 = tm.2

theorem aliased_false {bs : List (Nat × Bool)} :
    aliased bs = false ↔ bs.Pairwise (fun x y => x.1 = y.1 → x.2 = false ∧ y.2 = false) := by
  induction bs with
  | nil => simp [aliased]
  | cons x bs ih =>
    obtain ⟨a, m⟩ := x
    rw [List.pairwise_cons, ← ih]
    simp only [aliased, Bool.or_eq_false_iff, List.any_eq_false, Bool.and_eq_true, beq_iff_eq,
      Bool.or_eq_true, not_and, not_or, Bool.not_eq_true]
    constructor
    · rintro ⟨h, h'⟩
      exact ⟨fun y hy e => h y hy e.symm, h'⟩
    · rintro ⟨h, h'⟩
      exact ⟨fun y hy e => h y hy e.symm, h'⟩

theorem derefAll_typed {heap : Nat → Option Ty} {t : Ty} :
    ∀ {l : List (Option Nat)} {bs : List (Nat × Bool)}, derefAll heap t l = .pass bs →
      Typed heap (t, false) bs
  | [], bs, h => by
    simp only [derefAll, Checked.pass.injEq] at h
    subst h; intro x hx; simp at hx
  | none :: _, bs, h => by simp [derefAll] at h
  | some a :: l, bs, h => by
    simp only [derefAll] at h
    split at h
    · rename_i ha
      split at h
      · rename_i bs' hb
        simp only [Checked.pass.injEq] at h
        subst h
        intro x hx
        rcases List.mem_cons.1 hx with rfl | hx
        · exact ⟨ha, rfl⟩
        · exact derefAll_typed hb x hx
      · exact absurd h (by rename_i hne; exact fun h' => hne _ h')
    · simp at h

theorem deref_pass {heap : Nat → Option Ty} {t : Ty} {m : Bool} {a : Nat} {bs : List (Nat × Bool)}
    (h : deref heap t m a = .pass bs) : heap a = some t ∧ bs = [(a, m)] := by
  unfold deref at h
  split at h
  · rename_i ha
    simp only [Checked.pass.injEq] at h
    exact ⟨ha, h.symm⟩
  · simp at h

/-- The references one macro takes: none, or to objects of its type; more than one only if they are
not mutable. -/
theorem Check.run_typed {heap : Nat → Option Ty} {args : List Arg} {c : Check}
    {bs : List (Nat × Bool)} (h : c.run heap args = .pass bs) :
    bs = [] ∨ ∃ tm, c.borrow = some tm ∧ Typed heap tm bs ∧ aliased bs = false := by
  have imm : ∀ {t : Ty} {bs : List (Nat × Bool)}, Typed heap (t, false) bs → aliased bs = false := by
    intro t bs hb
    rw [aliased_false]
    exact List.Pairwise.imp_of_mem (R := fun _ _ => True)
      (fun {x y} hx hy _ _ => ⟨(hb x hx).2, (hb y hy).2⟩) (List.pairwise_of_forall (fun _ _ => trivial))
  have one : ∀ {t : Ty} {m : Bool} {a : Nat}, heap a = some t →
      Typed heap (t, m) [(a, m)] ∧ aliased [(a, m)] = false := by
    intro t m a ha
    refine ⟨?_, by simp [aliased]⟩
    intro x hx
    simp only [List.mem_singleton] at hx
    subst hx
    exact ⟨ha, rfl⟩
  cases c with
  | ptr i c =>
    left
    simp only [Check.run] at h
    repeat' split at h
    all_goals simp_all
  | ref i t c =>
    right
    simp only [Check.run] at h
    split at h
    · simp at h
    · obtain ⟨ha, rfl⟩ := deref_pass h
      exact ⟨(t, false), rfl, one ha⟩
    · simp at h
  | mutRef i t c =>
    right
    simp only [Check.run] at h
    split at h
    · simp at h
    · obtain ⟨ha, rfl⟩ := deref_pass h
      exact ⟨(t, true), rfl, one ha⟩
    · simp at h
  | optRef i t =>
    simp only [Check.run] at h
    split at h
    · left; simp_all
    · obtain ⟨ha, rfl⟩ := deref_pass h
      exact Or.inr ⟨(t, false), rfl, one ha⟩
    · simp at h
  | bytes i j c1 c2 =>
    left
    simp only [Check.run] at h
    repeat' split at h
    all_goals simp_all
  | optBytes i j c2 =>
    left
    simp only [Check.run] at h
    repeat' split at h
    all_goals simp_all
  | refArray i j t c1 c2 =>
    right
    simp only [Check.run] at h
    split at h
    · simp at h
    · split at h
      · simp at h
      · split at h
        · have := derefAll_typed h
          exact ⟨(t, false), rfl, this, imm this⟩
        · simp at h
    · simp at h
  | hashset i j c1 c2 =>
    left
    simp only [Check.run] at h
    repeat' split at h
    all_goals simp_all
  | str i c =>
    left
    simp only [Check.run] at h
    repeat' split at h
    all_goals simp_all

/-- The types of the references that a list of macros takes. -/
def borrowTys (cs : List Check) : List (Ty × Bool) := cs.filterMap Check.borrow

/-- No type is referred to both mutably and otherwise. -/
def NoMix (l : List (Ty × Bool)) : Prop :=
  l.Pairwise (fun x y => x.1 = y.1 → x.2 = false ∧ y.2 = false)

instance (l : List (Ty × Bool)) : Decidable (NoMix l) := by unfold NoMix; infer_instance

/-- The references taken by a list of macros are to objects of the types of the macros. -/
theorem runChecks_typed {heap : Nat → Option Ty} {args : List Arg} :
    ∀ {cs : List Check} {bs : List (Nat × Bool)}, runChecks heap args cs = .pass bs →
      ∀ x ∈ bs, ∃ t, heap x.1 = some t ∧ (t, x.2) ∈ borrowTys cs
  | [], bs, h => by
    simp only [runChecks, Checked.pass.injEq] at h
    subst h; simp
  | c :: cs, bs, h => by
    simp only [runChecks] at h
    split at h
    · rename_i bs0 h0
      split at h
      · rename_i bs1 h1
        simp only [Checked.pass.injEq] at h
        subst h
        intro x hx
        rcases List.mem_append.1 hx with hx | hx
        · rcases Check.run_typed h0 with rfl | ⟨tm, hb, ht, _⟩
          · simp at hx
          · refine ⟨tm.1, (ht x hx).1, ?_⟩
            rw [(ht x hx).2]
            simp [borrowTys, hb]
        · obtain ⟨t, h2, h3⟩ := runChecks_typed h1 x hx
          refine ⟨t, h2, ?_⟩
          unfold borrowTys at *
          rw [List.filterMap_cons]
          split
          · exact h3
          · exact List.mem_cons_of_mem _ h3
      · rename_i hne; exact absurd h (hne _)
    · rename_i hne; exact absurd h (hne _)

/-- No two references taken by the macros alias. -/
theorem runChecks_not_aliased {heap : Nat → Option Ty} {args : List Arg} :
    ∀ {cs : List Check} {bs : List (Nat × Bool)}, NoMix (borrowTys cs) →
      runChecks heap args cs = .pass bs → aliased bs = false
  | [], bs, _, h => by
    simp only [runChecks, Checked.pass.injEq] at h
    subst h; rfl
  | c :: cs, bs, hm, h => by
    simp only [runChecks] at h
    split at h
    · rename_i bs0 h0
      split at h
      · rename_i bs1 h1
        simp only [Checked.pass.injEq] at h
        subst h
        have hm' : NoMix (borrowTys cs) := by
          unfold borrowTys at *
          rw [List.filterMap_cons] at hm
          split at hm
          · exact hm
          · exact (List.pairwise_cons.1 hm).2
        have ih := runChecks_not_aliased hm' h1
        rcases Check.run_typed h0 with rfl | ⟨tm, hb, ht, ha⟩
        · simpa using ih
        · rw [aliased_false] at *
          rw [List.pairwise_append]
          refine ⟨ha, ih, ?_⟩
          intro x hx y hy e
          obtain ⟨t, h2, h3⟩ := runChecks_typed h1 y hy
          have hx' := ht x hx
          unfold borrowTys NoMix at hm
          rw [List.filterMap_cons, hb] at hm
          have := (List.pairwise_cons.1 hm).1 (t, y.2) h3
          rw [e, h2] at hx'
          have e2 : t = tm.1 := by simpa using hx'.1
          rw [hx'.2]
          exact this e2.symm
      · rename_i hne; exact absurd h (hne _)
    · rename_i hne; exact absurd h (hne _)

/-! ## Arguments of a correct call -/

/-- What is known of the argument `n` from the declared parameter; `m` lists the missing ones. -/
def Known (view : View) (ps : List Param) (args : List Arg) (i : Nat) (m : List Nat) : Prop :=
  ∀ n : Nat,
    (∀ t, ps[n]? = some (.handle t) → ∃ p, args[n]? = some (.handle p) ∧
      (∀ a, p = some a → view a = some t) ∧ (p = none → i + n ∈ m)) ∧
    (∀ p, ps[n]? = some p → (p = .outValue ∨ ∃ t, p = .outHandle t) →
      ∃ b, args[n]? = some (.out b) ∧ (b = false → i + n ∈ m))

theorem Known.cons {view : View} {ps : List Param} {args : List Arg} {i : Nat} {m m' : List Nat}
    {p : Param} {a : Arg}
    (h0 : ∀ t, p = .handle t → ∃ q, a = .handle q ∧
      (∀ a, q = some a → view a = some t) ∧ (q = none → i ∈ m'))
    (h1 : (p = .outValue ∨ ∃ t, p = .outHandle t) → ∃ b, a = .out b ∧ (b = false → i ∈ m'))
    (h : Known view ps args (i + 1) m) (hm : ∀ j ∈ m, j ∈ m') :
    Known view (p :: ps) (a :: args) i m' := by
  intro n
  cases n with
  | zero =>
    refine ⟨fun t ht => ?_, fun q hq hp => ?_⟩
    · simp only [List.getElem?_cons_zero, Option.some.injEq] at ht
      obtain ⟨q, rfl, h2, h3⟩ := h0 t ht
      exact ⟨q, rfl, h2, h3⟩
    · simp only [List.getElem?_cons_zero, Option.some.injEq] at hq
      subst hq
      obtain ⟨b, rfl, h2⟩ := h1 hp
      exact ⟨b, rfl, h2⟩
  | succ n =>
    have e : i + 1 + n = i + (n + 1) := by omega
    refine ⟨fun t ht => ?_, fun q hq hp => ?_⟩
    · obtain ⟨q, h2, h3, h4⟩ := (h n).1 t (by simpa using ht)
      exact ⟨q, by simpa using h2, h3, fun hq => e ▸ hm _ (h4 hq)⟩
    · obtain ⟨b, h2, h3⟩ := (h n).2 q (by simpa using hq) hp
      exact ⟨b, by simpa using h2, fun hq => e ▸ hm _ (h3 hq)⟩

theorem Known.skip {view : View} {ps : List Param} {args : List Arg} {i : Nat} {m m' : List Nat}
    {p : Param} {a : Arg} (h0 : ∀ t, p ≠ .handle t) (h1 : p ≠ .outValue)
    (h2 : ∀ t, p ≠ .outHandle t)
    (h : Known view ps args (i + 1) m) (hm : ∀ j ∈ m, j ∈ m') :
    Known view (p :: ps) (a :: args) i m' :=
  Known.cons (fun t ht => absurd ht (h0 t))
    (fun hp => by rcases hp with hp | ⟨t, hp⟩ <;> [exact absurd hp h1; exact absurd hp (h2 t)])
    h hm

/-- The declared parameter at a position determines the argument. -/
theorem valid_known {view : View} {ps : List Param} {args : List Arg} (h : Valid view ps args) :
    ∀ i, Known view ps args i (missing i ps args) := by
  revert h
  fun_induction Valid view ps args
  case case1 => intro _ i n; simp
  case case2 t ps p as ih =>
    rintro ⟨h, h'⟩ i
    refine Known.cons (fun t' ht => ?_) (by simp) (ih h' (i + 1)) (by simp +contextual [missing])
    cases ht
    exact ⟨p, rfl, h, by simp +contextual [missing]⟩
  case case3 t ps p as ih =>
    rintro ⟨h, h'⟩ i
    exact Known.skip (by simp) (by simp) (by simp) (ih h' (i + 1)) (by simp +contextual [missing])
  case case4 t ps b as ih =>
    intro h i
    exact Known.cons (by simp) (fun _ => ⟨b, rfl, by simp +contextual [missing]⟩) (ih h (i + 1))
      (by simp +contextual [missing])
  case case5 ps b as ih =>
    intro h i
    exact Known.cons (by simp) (fun _ => ⟨b, rfl, by simp +contextual [missing]⟩) (ih h (i + 1))
      (by simp +contextual [missing])
  case case6 ps s as ih =>
    intro h i
    exact Known.skip (by simp) (by simp) (by simp) (ih h (i + 1)) (by simp +contextual [missing])
  case case7 ps s n as ih =>
    rintro ⟨h, h'⟩ i
    exact Known.skip (by simp) (by simp) (by simp) (Known.skip (by simp) (by simp) (by simp)
      (ih h' (i + 2)) (fun j hj => hj)) (by simp +contextual [missing])
  case case8 ps s n as ih =>
    rintro ⟨h, h'⟩ i
    exact Known.skip (by simp) (by simp) (by simp) (Known.skip (by simp) (by simp) (by simp)
      (ih h' (i + 2)) (fun j hj => hj)) (by simp +contextual [missing])
  case case9 t ps xs n as ih =>
    rintro ⟨h, h'⟩ i
    exact Known.skip (by simp) (by simp) (by simp) (Known.skip (by simp) (by simp) (by simp)
      (ih h' (i + 2)) (fun j hj => hj)) (by simp +contextual [missing])
  case case10 ps s n as ih =>
    rintro ⟨h, h'⟩ i
    exact Known.skip (by simp) (by simp) (by simp) (Known.skip (by simp) (by simp) (by simp)
      (ih h' (i + 2)) (fun j hj => hj)) (by simp +contextual [missing])
  case case11 ps n as ih =>
    intro h i
    exact Known.skip (by simp) (by simp) (by simp) (ih h (i + 1)) (by simp +contextual [missing])
  case case12 ps as ih =>
    intro h i
    exact Known.skip (by simp) (by simp) (by simp) (ih h (i + 1)) (by simp +contextual [missing])
  case case13 ps as ih =>
    intro h i
    exact Known.skip (by simp) (by simp) (by simp) (ih h (i + 1)) (by simp +contextual [missing])
  case case14 => intro h; exact h.elim

/-- What is known of a missing argument: it belongs to a parameter, and if this is an out pointer it
is null. -/
def MissKnown (ps : List Param) (args : List Arg) (i j : Nat) : Prop :=
  ∃ n, j = i + n ∧ (∀ p, ps[n]? = some p → (p = .outValue ∨ ∃ t, p = .outHandle t) →
    args[n]? = some (.out false)) ∧ ps[n]? ≠ none

theorem MissKnown.cons {ps : List Param} {args : List Arg} {i j : Nat} {p : Param} {a : Arg}
    (h : MissKnown ps args (i + 1) j) : MissKnown (p :: ps) (a :: args) i j := by
  obtain ⟨n, hn, h1, h2⟩ := h
  exact ⟨n + 1, by omega, by simpa using h1, by simpa using h2⟩

theorem MissKnown.here {ps : List Param} {args : List Arg} {i : Nat} {p : Param} {a : Arg}
    (h1 : p ≠ .outValue) (h2 : ∀ t, p ≠ .outHandle t) : MissKnown (p :: ps) (a :: args) i i :=
  ⟨0, rfl, by
    intro q hq hp
    simp only [List.getElem?_cons_zero, Option.some.injEq] at hq
    subst hq
    rcases hp with hp | ⟨t, hp⟩
    · exact absurd hp h1
    · exact absurd hp (h2 t), by simp⟩

theorem missing_out {view : View} {ps : List Param} {args : List Arg} (h : Valid view ps args) :
    ∀ i, ∀ j ∈ missing i ps args, MissKnown ps args i j := by
  revert h
  fun_induction Valid view ps args
  case case1 => intro _ i j h; simp [missing] at h
  case case2 t ps p as ih =>
    rintro ⟨h, h'⟩ i j hj
    rcases List.mem_append.1 hj with hj | hj
    · split at hj <;> simp at hj
      subst hj; exact MissKnown.here (by simp) (by simp)
    · exact (ih h' _ j hj).cons
  case case3 t ps p as ih =>
    rintro ⟨h, h'⟩ i j hj
    exact (ih h' _ j hj).cons
  case case4 t ps b as ih =>
    intro h i j hj
    rcases List.mem_append.1 hj with hj | hj
    · split at hj <;> simp at hj
      subst hj
      rename_i hb
      exact ⟨0, rfl, fun q hq _ => by simpa using hb, by simp⟩
    · exact (ih h _ j hj).cons
  case case5 ps b as ih =>
    intro h i j hj
    rcases List.mem_append.1 hj with hj | hj
    · split at hj <;> simp at hj
      subst hj
      rename_i hb
      exact ⟨0, rfl, fun q hq _ => by simpa using hb, by simp⟩
    · exact (ih h _ j hj).cons
  case case6 ps s as ih =>
    intro h i j hj
    rcases List.mem_append.1 hj with hj | hj
    · split at hj <;> simp at hj
      subst hj; exact MissKnown.here (by simp) (by simp)
    · exact (ih h _ j hj).cons
  case case7 ps s n as ih =>
    rintro ⟨h, h'⟩ i j hj
    rcases List.mem_append.1 hj with hj | hj
    · repeat' split at hj
      all_goals simp at hj
      all_goals subst hj
      · exact MissKnown.here (by simp) (by simp)
      · exact (MissKnown.here (by simp) (by simp)).cons
    · exact (ih h' _ j hj).cons.cons
  case case8 ps s n as ih =>
    rintro ⟨h, h'⟩ i j hj
    rcases List.mem_append.1 hj with hj | hj
    · repeat' split at hj
      all_goals simp at hj
      all_goals subst hj
      · exact (MissKnown.here (by simp) (by simp)).cons
    · exact (ih h' _ j hj).cons.cons
  case case9 t ps xs n as ih =>
    rintro ⟨h, h'⟩ i j hj
    rcases List.mem_append.1 hj with hj | hj
    · repeat' split at hj
      all_goals simp at hj
      all_goals subst hj
      · exact MissKnown.here (by simp) (by simp)
      · exact (MissKnown.here (by simp) (by simp)).cons
    · exact (ih h' _ j hj).cons.cons
  case case10 ps s n as ih =>
    rintro ⟨h, h'⟩ i j hj
    rcases List.mem_append.1 hj with hj | hj
    · repeat' split at hj
      all_goals simp at hj
      all_goals subst hj
      · exact MissKnown.here (by simp) (by simp)
    · exact (ih h' _ j hj).cons.cons
  case case11 ps n as ih =>
    intro h i j hj
    exact (ih h _ j hj).cons
  case case12 ps as ih =>
    intro h i j hj
    exact (ih h _ j hj).cons
  case case13 ps as ih =>
    intro h i j hj
    exact (ih h _ j hj).cons
  case case14 => intro h; exact h.elim

/-! ## The table -/

/-- The code that is returned for the missing parameter `j`. -/
def complaint (f : Fn) (j : Nat) : Code := (misnamed f j).getD (codeOfParam j)

/-- The macros of every function but one match its declaration. -/
theorem guards (f : Fn) (h : f ≠ .ursa_cl_revocation_registry_delta_to_json) :
    Guards ((sig f).takes ++ (sig f).derefs) (unguarded f) (complaint f) 0 (sig f).params
      (sig f).checks := by
  cases f
  case ursa_cl_revocation_registry_delta_to_json => exact absurd rfl h
  all_goals
    simp only [sig]
    repeat' first
      | apply Guards.nil | apply Guards.ref | apply Guards.mutRef | apply Guards.own
      | apply Guards.optRef | apply Guards.outH | apply Guards.outV | apply Guards.outHN
      | apply Guards.outVN | apply Guards.str | apply Guards.bytes | apply Guards.optBytes
      | apply Guards.refArray | apply Guards.hashset | apply Guards.scalar | apply Guards.ctx
      | apply Guards.callback
      | rfl
      | (simp [unguarded]; done)

theorem unguarded_outsOnly (f : Fn) : OutsOnly (unguarded f) 0 (sig f).params := by
  intro j hj n hn
  obtain rfl : n = j - 1 := by omega
  cases f <;> simp only [unguarded, List.not_mem_nil, List.mem_singleton] at hj
  all_goals
    subst hj
    simp [sig]

/-- The types a function refers to. -/
def refTys (f : Fn) : List (Ty × Bool) :=
  borrowTys (sig f).checks ++ (sig f).derefs.map (fun d => (d.2, false))

/-- A function frees its first argument, of the declared type and not referred to, if it is one of
those documented to do so, and nothing otherwise. -/
theorem sig_takes (f : Fn) :
    ((sig f).takes = [] ∧ releases f = false) ∨
    ∃ t, (sig f).takes = [(0, t)] ∧ (sig f).params[0]? = some (.handle t) ∧ releases f = true ∧
      unguarded f = [] ∧ ∀ m, (t, m) ∉ refTys f := by
  cases f <;> first
    | exact Or.inl ⟨rfl, rfl⟩
    | exact Or.inr ⟨_, rfl, rfl, rfl, rfl, by decide⟩

theorem sig_derefs (f : Fn) :
    ∀ d ∈ (sig f).derefs, (sig f).params[d.1]? = some (.handle d.2) ∧ (d.1 + 1) ∉ unguarded f := by
  cases f <;> decide

theorem sig_noMix (f : Fn) (h : f ≠ .ursa_cl_issuer_merge_revocation_registry_deltas) :
    NoMix (refTys f) := by
  cases f <;> first
    | exact absurd rfl h
    | decide

/-- The type of the object boxed. -/
def Out.ty : Out → Option Ty
  | .box t => some t
  | .boxOrNull t => some t
  | .value => none

/-- What is written is what is declared. -/
def OutsTyped (ps : List Param) (os : List (Nat × Out)) : Prop :=
  ∀ o ∈ os, match o.2.ty with
    | some t => ps[o.1]? = some (.outHandle t)
    | none => ps[o.1]? = some .outValue

instance (ps : List Param) (os : List (Nat × Out)) : Decidable (OutsTyped ps os) := by
  unfold OutsTyped
  refine @List.decidableBAll _ _ (fun o => ?_) _
  cases o.2.ty <;> infer_instance

theorem sig_outs (f : Fn) (h : mistyped f = false) : OutsTyped (sig f).params (sig f).outs := by
  cases f <;> first
    | (exfalso; revert h; decide)
    | decide

/-- The positions of the out pointers of a declaration. -/
def outPositions (ps : List Param) : List Nat :=
  (List.range ps.length).filter (fun i => match ps[i]? with
    | some (.outHandle _) => true
    | some .outValue => true
    | _ => false)

/-- Every out pointer is written, in order. -/
theorem sig_outs_all (f : Fn) : (sig f).outs.map Prod.fst = outPositions (sig f).params := by
  cases f <;> decide

/-! ## Boxes -/

/-- The handles that a successful call writes. -/
def written (addr : Nat → Nat) (present : Bool) (os : List (Nat × Out)) :
    List (Nat × Option Nat) :=
  os.filterMap (fun o => match o.2 with
    | .box _ => some (o.1, some (addr o.1))
    | .boxOrNull _ => some (o.1, if present then some (addr o.1) else none)
    | .value => none)

theorem runOuts_some {args : List Arg} {addr : Nat → Nat} {present : Bool} {ps : List Param} :
    ∀ {os : List (Nat × Out)} {heap : Nat → Option Ty}, OutsTyped ps os →
      (∀ o ∈ os, args[o.1]? = some (.out true)) →
      runOuts args addr present os heap =
        some (written addr present os, noteWrites ps (written addr present os) heap)
  | [], heap, _, _ => rfl
  | (i, o) :: os, heap, ht, ha => by
    have hi := ha (i, o) (by simp)
    have ht0 := ht (i, o) (by simp)
    have ht' : OutsTyped ps os := fun x hx => ht x (by simp [hx])
    have ha' : ∀ o ∈ os, args[o.1]? = some (.out true) := fun x hx => ha x (by simp [hx])
    cases o with
    | box t =>
      simp only [Out.ty] at ht0
      simp [runOuts, hi, runOuts_some ht' ha', written, noteWrites, ht0]
    | boxOrNull t =>
      simp only [Out.ty] at ht0
      cases present <;>
        simp [runOuts, hi, runOuts_some ht' ha', written, noteWrites, ht0]
    | value => simp [runOuts, hi, runOuts_some ht' ha', written]

theorem runOuts_none {args : List Arg} {addr : Nat → Nat} {present : Bool} :
    ∀ {os : List (Nat × Out)} {heap : Nat → Option Ty},
      (∃ o ∈ os, args[o.1]? = some (.out false)) → runOuts args addr present os heap = none
  | [], heap, h => by simp at h
  | (i, o) :: os, heap, h => by
    by_cases hi : args[i]? = some (.out true)
    · have h' : ∃ o ∈ os, args[o.1]? = some (.out false) := by
        obtain ⟨x, hx, e⟩ := h
        rcases List.mem_cons.1 hx with rfl | hx
        · rw [hi] at e; simp at e
        · exact ⟨x, hx, e⟩
      cases o <;> cases present <;> simp [runOuts, hi, runOuts_none h']
    · simp only [runOuts]

theorem runDerefs_pass {heap : Nat → Option Ty} {args : List Arg} :
    ∀ {ds : List (Nat × Ty)},
      (∀ d ∈ ds, ∃ a, args[d.1]? = some (.handle (some a)) ∧ heap a = some d.2) →
      ∃ bs, runDerefs heap args ds = .pass bs ∧
        ∀ x ∈ bs, ∃ t, heap x.1 = some t ∧ (t, x.2) ∈ ds.map (fun d => (d.2, false))
  | [], _ => ⟨[], rfl, by simp⟩
  | (i, t) :: ds, h => by
    obtain ⟨a, ha, ht⟩ := h (i, t) (by simp)
    obtain ⟨bs, hb, hb'⟩ := runDerefs_pass (ds := ds) (fun d hd => h d (by simp [hd]))
    refine ⟨(a, false) :: bs, ?_, ?_⟩
    · simp only at ha ht
      simp [runDerefs, ha, deref, ht, hb]
    · intro x hx
      rcases List.mem_cons.1 hx with rfl | hx
      · exact ⟨t, ht, by simp⟩
      · obtain ⟨t', h1, h2⟩ := hb' x hx
        exact ⟨t', h1, List.mem_cons_of_mem _ h2⟩

/-! ## One call -/

/-- The result of the library call as the function sees it. -/
def Fn.core (f : Fn) (core : Core) : Core := if (sig f).fallible then core else .ok true

/-- A call in which a checked argument is missing. -/
theorem call_refused {f : Fn} {args : List Arg} {core : Core} {addr : Nat → Nat} {st : State}
    (hf : f ≠ .ursa_cl_revocation_registry_delta_to_json)
    (hv : Valid st.heap (sig f).params args) {j : Nat} {js : List Nat}
    (hm : missed (unguarded f) (missing 1 (sig f).params args) = j :: js) :
    ∃ k, kindOk (sig f).params 0 (complaint f) j k ∧
      (sig f).call args core addr st =
        .returned (complaint f j) [] { st with lastErr := some k } := by
  have h := runChecks_guarded (guards f hf) [] args rfl hv (unguarded_outsOnly f)
  simp only [List.nil_append] at h
  rcases h with ⟨h1, -⟩ | ⟨j', js', k, h1, h2, h3⟩
  · rw [Nat.zero_add, hm] at h1; simp at h1
  · rw [Nat.zero_add, hm] at h1
    obtain ⟨rfl, -⟩ : j = j' ∧ js = js' := by simpa using h1
    exact ⟨k, h2, by simp [Sig.call, h3]⟩

/-- A call in which no checked argument is missing: the object given to a releasing function is
gone, then the library decides, then the boxes are written unless an out pointer is null. -/
theorem call_proceeds {f : Fn} {args : List Arg} {core : Core} {addr : Nat → Nat} {st : State}
    (hf : mistyped f = false) (hv : Valid st.heap (sig f).params args)
    (hm : missed (unguarded f) (missing 1 (sig f).params args) = []) :
    (sig f).call args core addr st =
      match f.core core with
      | .panic => .aborted
      | .err k => .returned (.ofKind k) []
          { heap := noteRelease f args st.heap, lastErr := some k }
      | .ok present =>
        if Complete f args then
          .returned .success (written addr present (sig f).outs)
            { st with heap := noted f args (written addr present (sig f).outs) st.heap }
        else .undefined := by
  have hf1 : f ≠ .ursa_cl_revocation_registry_delta_to_json := by rintro rfl; simp [mistyped] at hf
  have hf2 : f ≠ .ursa_cl_issuer_merge_revocation_registry_deltas := by
    rintro rfl; simp [mistyped] at hf
  have hk := valid_known hv 1
  have hmem : ∀ j ∈ missing 1 (sig f).params args, j ∈ unguarded f := by
    intro j hj
    by_contra hn
    have : j ∈ missed (unguarded f) (missing 1 (sig f).params args) := by
      simp [missed, hj, hn]
    rw [hm] at this
    simp at this
  -- the macros pass
  have h := runChecks_guarded (guards f hf1) [] args rfl hv (unguarded_outsOnly f)
  simp only [List.nil_append, CheckedAs, Nat.zero_add, hm] at h
  obtain ⟨-, bs1, h1⟩ : True ∧ ∃ bs, runChecks st.heap args (sig f).checks = .pass bs :=
    h.resolve_right (by rintro ⟨j, js, k, h1, -⟩; simp at h1)
  -- the other references
  obtain ⟨bs2, h2, h2t⟩ := runDerefs_pass (heap := st.heap) (args := args) (ds := (sig f).derefs) (by
    intro d hd
    obtain ⟨hp, hu⟩ := sig_derefs f d hd
    obtain ⟨p, ha, hb, hc⟩ := (hk d.1).1 _ hp
    cases p with
    | none => exact absurd (hmem _ (Nat.add_comm 1 d.1 ▸ hc rfl)) hu
    | some a => exact ⟨a, ha, hb a rfl⟩)
  -- all references
  have hty : ∀ x ∈ bs1 ++ bs2, ∃ t, st.heap x.1 = some t ∧ (t, x.2) ∈ refTys f := by
    intro x hx
    rcases List.mem_append.1 hx with hx | hx
    · obtain ⟨t, ha, hb⟩ := runChecks_typed h1 x hx
      exact ⟨t, ha, by simp [refTys, hb]⟩
    · obtain ⟨t, ha, hb⟩ := h2t x hx
      exact ⟨t, ha, List.mem_append.2 (Or.inr hb)⟩
  have hal : aliased (bs1 ++ bs2) = false := by
    have hnm := sig_noMix f hf2
    have h3 := runChecks_not_aliased (List.pairwise_append.1 hnm).1 h1
    rw [aliased_false] at *
    rw [List.pairwise_append]
    have imm : ∀ x ∈ bs2, x.2 = false := by
      intro x hx
      obtain ⟨t, -, hb⟩ := h2t x hx
      simp only [List.mem_map, Prod.mk.injEq] at hb
      obtain ⟨_, _, _, e⟩ := hb
      exact e.symm
    refine ⟨h3, ?_, ?_⟩
    · exact List.Pairwise.imp_of_mem (R := fun _ _ => True)
        (fun {x y} hx hy _ _ => ⟨imm x hx, imm y hy⟩) (List.pairwise_of_forall (fun _ _ => trivial))
    · intro x hx y hy e
      obtain ⟨t, ha, hb⟩ := runChecks_typed h1 x hx
      obtain ⟨t', ha', hb'⟩ := h2t y hy
      rw [e, ha'] at ha
      have := (List.pairwise_append.1 hnm).2.2 _ hb _ hb' (by simpa using ha.symm)
      exact this
  -- the box taken
  have htk : runTakes args (bs1 ++ bs2) (sig f).takes st.heap = some (noteRelease f args st.heap) := by
    rcases sig_takes f with ⟨e, hr⟩ | ⟨t, e, hp, hr, hu, hnr⟩
    · simp [e, runTakes, noteRelease, hr]
    · obtain ⟨p, ha, hb, hc⟩ := (hk 0).1 _ hp
      have hcomp : Complete f args := by
        unfold Complete
        cases hmm : missing 1 (sig f).params args with
        | nil => rfl
        | cons j js =>
          have := hmem j (by rw [hmm]; simp)
          rw [hu] at this; simp at this
      cases p with
      | none =>
        have := hc rfl
        rw [show missing 1 (sig f).params args = [] from hcomp] at this
        simp at this
      | some a =>
        have hfree : (bs1 ++ bs2).all (fun x => x.1 != a) = true := by
          rw [List.all_eq_true]
          intro x hx
          obtain ⟨t', h5, h6⟩ := hty x hx
          rw [bne_iff_ne]
          rintro rfl
          rw [hb _ rfl] at h5
          obtain rfl : t = t' := by simpa using h5
          exact hnr _ h6
        simp only [e, runTakes, ha, hb a rfl, true_and, hfree, if_true, noteRelease, hr, hcomp,
          and_self]
  simp only [Sig.call, h1, h2, hal, Bool.false_eq_true, if_false, htk]
  show (match f.core core with
    | .panic => Outcome.aborted
    | .err k => _
    | .ok present => _) = _
  cases hcore : f.core core with
  | panic => rfl
  | err k => rfl
  | ok present =>
    have hot := sig_outs f hf
    have hout : ∀ o ∈ (sig f).outs, ∃ b, args[o.1]? = some (.out b) ∧
        (b = false → 1 + o.1 ∈ missing 1 (sig f).params args) := by
      intro o ho
      have hp := hot o ho
      cases hty' : o.2.ty with
      | none =>
        simp only [hty'] at hp
        exact (hk o.1).2 _ hp (Or.inl rfl)
      | some t =>
        simp only [hty'] at hp
        exact (hk o.1).2 _ hp (Or.inr ⟨t, rfl⟩)
    by_cases hc : Complete f args
    · have hall : ∀ o ∈ (sig f).outs, args[o.1]? = some (.out true) := by
        intro o ho
        obtain ⟨b, hb, hb'⟩ := hout o ho
        cases b with
        | true => exact hb
        | false =>
          have := hb' rfl
          rw [show missing 1 (sig f).params args = [] from hc] at this
          simp at this
      simp only [runOuts_some hot hall, hc, if_true]
      rfl
    · have hnone : ∃ o ∈ (sig f).outs, args[o.1]? = some (.out false) := by
        cases hmm : missing 1 (sig f).params args with
        | nil => exact absurd hmm hc
        | cons j js =>
          have hju := hmem j (by rw [hmm]; simp)
          obtain ⟨n, hn, ho⟩ := missing_out hv 1 j (by rw [hmm]; simp)
          have hpos := unguarded_outsOnly f j hju n (by omega)
          have hn' : args[n]? = some (.out false) ∧ n ∈ outPositions (sig f).params := by
            have hlt : n < (sig f).params.length ∨ (sig f).params.length ≤ n := by omega
            rcases hpos with hpos | ⟨t, hpos⟩ | hpos
            · exact absurd (ho.2) (by simp [hpos])
            · refine ⟨ho.1 _ hpos (Or.inr ⟨t, rfl⟩), ?_⟩
              have := (List.getElem?_eq_some_iff.1 hpos).1
              exact List.mem_filter.2 ⟨List.mem_range.2 this, by simp only [hpos]⟩
            · refine ⟨ho.1 _ hpos (Or.inl rfl), ?_⟩
              have := (List.getElem?_eq_some_iff.1 hpos).1
              exact List.mem_filter.2 ⟨List.mem_range.2 this, by simp only [hpos]⟩
          rw [← sig_outs_all f] at hn'
          obtain ⟨ha, hb⟩ := hn'
          obtain ⟨o, ho1, rfl⟩ := List.mem_map.1 hb
          exact ⟨o, ho1, ha⟩
      simp only [runOuts_none hnone, hc, if_false]

end Verif.FFI
