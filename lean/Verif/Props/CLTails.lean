import Verif.CL.TailsAccess
import Mathlib.Tactic.Abel

/-!
# C135, C136: tails given by the caller's functions

C135: whatever the caller's functions do, they are called in pairs: every tail taken is put back before the next one is
taken, and only a tail that was refused is not put back.
C136: when an access fails, what has become of the registry or the witness.
-/

set_option linter.unusedVariables false
set_option linter.unusedSectionVars false

namespace Verif.CL.Rev

open Verif

variable {G2 S : Type}

/-! ## Specification -/

/-- The calls in which each of the given tails is taken and put back. -/
def balanced (ids : List Nat) : List Event := ids.flatMap (fun i => [.take i, .put i])

/-- The protocol of the caller's functions: tails are taken and put back one at a time; a last one may have been asked
for without being put back. -/
def Protocol (es : List Event) : Prop := ∃ ids, es = balanced ids ∨ ∃ i, es = balanced ids ++ [.take i]

/-- From the calls `h` on, the accesses listed (identifier and tail) all succeed. -/
inductive Served (env : Env G2) : List Event → List (Nat × G2) → Prop
  | nil (h : List Event) : Served env h []
  | cons (h : List Event) (i : Nat) (t : G2) (l : List (Nat × G2)) :
      env h i = .given t true → Served env (h ++ [.take i, .put i]) l → Served env h ((i, t) :: l)

/-- How a loop of accesses ends, after the accesses `l` succeeded. -/
inductive Ends (env : Env G2) (f : S → G2 → S) (h : List Event) (s : S) (l : List (Nat × G2)) :
    Done S Unit → Prop
  /-- all went well -/
  | done : Ends env f h s l ⟨h ++ balanced (l.map Prod.fst), (l.map Prod.snd).foldl f s, .ok ()⟩
  /-- the next tail is refused -/
  | refused (i : Nat) : env (h ++ balanced (l.map Prod.fst)) i = .refused →
      Ends env f h s l ⟨h ++ balanced (l.map Prod.fst) ++ [.take i], (l.map Prod.snd).foldl f s,
        .err "take_tail failed"⟩
  /-- the next tail is given, but it cannot be put back -/
  | unput (i : Nat) (t : G2) : env (h ++ balanced (l.map Prod.fst)) i = .given t false →
      Ends env f h s l ⟨h ++ balanced (l.map Prod.fst) ++ [.take i, .put i],
        f ((l.map Prod.snd).foldl f s) t, .err "put_tail failed"⟩
  /-- the caller's function panics -/
  | panics (i : Nat) : env (h ++ balanced (l.map Prod.fst)) i = .panics →
      Ends env f h s l ⟨h ++ balanced (l.map Prod.fst) ++ [.take i], (l.map Prod.snd).foldl f s, .panic⟩
  /-- the identifier is not a `u32` -/
  | overflow : Ends env f h s l ⟨h ++ balanced (l.map Prod.fst), (l.map Prod.snd).foldl f s, .panic⟩

/-! ## The loop -/

theorem u32_not_err (m : Overflow) (x : Int) (e : String) : u32 m x ≠ .err e := by
  unfold u32
  split
  · simp
  · cases m <;> simp

theorem bind_not_err {α β : Type} {x : Res String α} {f : α → Res String β} (hx : ∀ e, x ≠ .err e)
    (hf : ∀ a e, f a ≠ .err e) (e : String) : x >>= f ≠ .err e := by
  cases x with
  | ok a => exact hf a e
  | err e' => exact absurd rfl (hx e')
  | panic => simp

theorem getIndex_not_err (m : Overflow) (a b : Nat) (e : String) : getIndex m a b ≠ .err e :=
  bind_not_err (fun e => u32_not_err m _ e) (fun _ e => u32_not_err m _ e) e

theorem witnessIndex_not_err (m : Overflow) (a b c : Nat) (e : String) : witnessIndex m a b c ≠ .err e :=
  bind_not_err (fun e => u32_not_err m _ e)
    (fun _ e => bind_not_err (fun e => u32_not_err m _ e) (fun _ e => u32_not_err m _ e) e) e

/-- A loop of accesses, for all behaviours of the caller's functions. -/
theorem accessLoop_ends (env : Env G2) (idx : Nat → Res String Nat) (hidx : ∀ i e, idx i ≠ .err e) (f : S → G2 → S) :
    ∀ (is : List Nat) (h : List Event) (s : S), ∃ l, Served env h l ∧ Ends env f h s l (accessLoop env idx f is h s) ∧
      ((accessLoop env idx f is h s).result = .ok () → is.map idx = l.map (fun x => .ok x.1))
  | [], h, s => ⟨[], Served.nil h, by simpa [accessLoop, balanced] using Ends.done (env := env) (f := f) (h := h) (s := s) (l := []), by simp⟩
  | i :: is, h, s => by
    cases hi : idx i with
    | err e => exact absurd hi (hidx i e)
    | panic =>
      refine ⟨[], Served.nil h, ?_, ?_⟩
      · simpa [accessLoop, hi, balanced] using Ends.overflow (env := env) (f := f) (h := h) (s := s) (l := [])
      · simp [accessLoop, hi]
    | ok id =>
      cases he : env h id with
      | refused =>
        refine ⟨[], Served.nil h, ?_, ?_⟩
        · have := Ends.refused (env := env) (f := f) (h := h) (s := s) (l := []) id (by simpa [balanced] using he)
          simpa [accessLoop, hi, accessTailWith, he, balanced] using this
        · simp [accessLoop, hi, accessTailWith, he]
      | panics =>
        refine ⟨[], Served.nil h, ?_, ?_⟩
        · have := Ends.panics (env := env) (f := f) (h := h) (s := s) (l := []) id (by simpa [balanced] using he)
          simpa [accessLoop, hi, accessTailWith, he, balanced] using this
        · simp [accessLoop, hi, accessTailWith, he]
      | given t ok =>
        cases ok with
        | false =>
          refine ⟨[], Served.nil h, ?_, ?_⟩
          · have := Ends.unput (env := env) (f := f) (h := h) (s := s) (l := []) id t (by simpa [balanced] using he)
            simpa [accessLoop, hi, accessTailWith, he, balanced] using this
          · simp [accessLoop, hi, accessTailWith, he]
        | true =>
          obtain ⟨l, h1, h2, h3⟩ := accessLoop_ends env idx hidx f is (h ++ [.take id, .put id]) (f s t)
          have hb : h ++ [.take id, .put id] ++ balanced (l.map Prod.fst) =
              h ++ balanced (((id, t) :: l).map Prod.fst) := by
            simp [balanced]
          have heq : accessLoop env idx f (i :: is) h s =
              accessLoop env idx f is (h ++ [.take id, .put id]) (f s t) := by
            simp [accessLoop, hi, accessTailWith, he]
          rw [heq]
          refine ⟨(id, t) :: l, Served.cons h id t l he h1, ?_, ?_⟩
          · generalize accessLoop env idx f is (h ++ [.take id, .put id]) (f s t) = d at h2
            cases h2 with
            | done => rw [hb]; exact Ends.done
            | refused i h' => rw [hb] at h' ⊢; exact Ends.refused i h'
            | unput i t' h' => rw [hb] at h' ⊢; exact Ends.unput i t' h'
            | panics i h' => rw [hb] at h' ⊢; exact Ends.panics i h'
            | overflow => rw [hb]; exact Ends.overflow
          · intro hr
            simp [hi, h3 hr]

theorem Ends.protocol {env : Env G2} {f : S → G2 → S} {h : List Event} {s : S} {l : List (Nat × G2)} {d : Done S Unit}
    (he : Ends env f h s l d) :
    ∃ es, d.events = h ++ es ∧ Protocol es ∧ (d.result = .ok () → es = balanced (l.map Prod.fst)) := by
  cases he with
  | done => exact ⟨_, rfl, ⟨_, Or.inl rfl⟩, fun _ => rfl⟩
  | refused i h' => exact ⟨_, List.append_assoc _ _ _, ⟨_, Or.inr ⟨i, rfl⟩⟩, by simp⟩
  | unput i t h' =>
    exact ⟨_, List.append_assoc _ _ _, ⟨l.map Prod.fst ++ [i], Or.inl (by simp [balanced])⟩, by simp⟩
  | panics i h' => exact ⟨_, List.append_assoc _ _ _, ⟨_, Or.inr ⟨i, rfl⟩⟩, by simp⟩
  | overflow => exact ⟨_, rfl, ⟨_, Or.inl rfl⟩, by simp⟩

theorem Protocol.after {ids : List Nat} {es : List Event} (h : Protocol es) : Protocol (balanced ids ++ es) := by
  obtain ⟨ids', h | ⟨i, h⟩⟩ := h
  · exact ⟨ids ++ ids', Or.inl (by simp [balanced, h])⟩
  · exact ⟨ids ++ ids', Or.inr ⟨i, by simp [balanced, h]⟩⟩

theorem loop_protocol (env : Env G2) (idx : Nat → Res String Nat) (hidx : ∀ i e, idx i ≠ .err e) (f : S → G2 → S)
    (is : List Nat) (h : List Event) (s : S) :
    ∃ es, (accessLoop env idx f is h s).events = h ++ es ∧ Protocol es ∧
      ((accessLoop env idx f is h s).result = .ok () → ∃ ids, es = balanced ids) := by
  obtain ⟨l, -, he, -⟩ := accessLoop_ends env idx hidx f is h s
  obtain ⟨es, h1, h2, h3⟩ := he.protocol
  exact ⟨es, h1, h2, fun hr => ⟨_, h3 hr⟩⟩

/-! ## C135 -/

variable [AddCommGroup G2]

theorem registerWith_true (m : Overflow) (env : Env G2) (h : List Event) (reg : G2) (maxCredNum revIdx : Nat) :
    registerWith m env h reg maxCredNum revIdx true =
      ⟨h, reg, do let _ ← getIndex m maxCredNum revIdx; pure none⟩ := by
  unfold registerWith
  rw [if_pos rfl]

theorem registerWith_false (m : Overflow) (env : Env G2) (h : List Event) (reg : G2) (maxCredNum revIdx : Nat) :
    registerWith m env h reg maxCredNum revIdx false =
      (accessLoop env (getIndex m maxCredNum) (fun a t => a + t) [revIdx] h reg).finish fun a =>
        some { prevAccum := some reg, accum := a, issued := {revIdx}, revoked := ∅ } := by
  unfold registerWith
  rw [if_neg (by decide)]

theorem finish_events {α : Type} (d : Done S Unit) (mk : S → α) : (d.finish mk).events = d.events := rfl
theorem finish_state {α : Type} (d : Done S Unit) (mk : S → α) : (d.finish mk).state = d.state := rfl
theorem finish_result {α : Type} (d : Done S Unit) (mk : S → α) :
    (d.finish mk).result = d.result >>= fun _ => .ok (mk d.state) := rfl

/-- C135: in every operation, for all behaviours of the caller's functions, they are called according to the
protocol. -/
theorem tails_protocol (m : Overflow) (env : Env G2) (h : List Event) (reg : G2) (maxCredNum revIdx : Nat)
    (byDefault : Bool) (issued revoked : Finset Nat) (delta : Delta G2) (rs is : List Nat) :
    (∃ es, (revokeWith m env h reg maxCredNum revIdx).events = h ++ es ∧ Protocol es) ∧
    (∃ es, (recoverWith m env h reg maxCredNum revIdx).events = h ++ es ∧ Protocol es) ∧
    (∃ es, (registerWith m env h reg maxCredNum revIdx byDefault).events = h ++ es ∧ Protocol es) ∧
    (∃ es, (updateWith m env h reg maxCredNum issued revoked).events = h ++ es ∧ Protocol es) ∧
    (∃ es, (witnessNewWith m env h revIdx maxCredNum byDefault delta).events = h ++ es ∧ Protocol es) ∧
    (∃ es, (witnessUpdateWith m env h reg revIdx maxCredNum rs is).events = h ++ es ∧ Protocol es) := by
  have gi : ∀ i e, getIndex m maxCredNum i ≠ .err e := fun i e => getIndex_not_err m maxCredNum i e
  have wi : ∀ i e, (fun j => witnessIndex m maxCredNum j revIdx) i ≠ .err e :=
    fun i e => witnessIndex_not_err m maxCredNum i revIdx e
  have one : ∀ (idx : Nat → Res String Nat) (hidx : ∀ i e, idx i ≠ .err e) (f : G2 → G2 → G2) (is : List Nat) (s : G2),
      ∃ es, (accessLoop env idx f is h s).events = h ++ es ∧ Protocol es := by
    intro idx hidx f is s
    obtain ⟨es, h1, h2, -⟩ := loop_protocol env idx hidx f is h s
    exact ⟨es, h1, h2⟩
  have two : ∀ (idx : Nat → Res String Nat) (hidx : ∀ i e, idx i ≠ .err e) (f f' : G2 → G2 → G2) (is is' : List Nat)
      (s s' : G2), (accessLoop env idx f is h s).result = .ok () →
      ∃ es, (accessLoop env idx f' is' (accessLoop env idx f is h s).events s').events = h ++ es ∧ Protocol es := by
    intro idx hidx f f' is is' s s' hr
    obtain ⟨es, h1, h2, h3⟩ := loop_protocol env idx hidx f is h s
    obtain ⟨ids, rfl⟩ := h3 hr
    obtain ⟨es', h1', h2', -⟩ := loop_protocol env idx hidx f' is' (accessLoop env idx f is h s).events s'
    exact ⟨balanced ids ++ es', by rw [h1', h1, List.append_assoc], h2'.after⟩
  have reg' : ∃ es, (registerWith m env h reg maxCredNum revIdx byDefault).events = h ++ es ∧ Protocol es := by
    cases byDefault
    · rw [registerWith_false, finish_events]
      exact one _ gi _ _ _
    · rw [registerWith_true]
      exact ⟨[], by simp, [], Or.inl rfl⟩
  unfold revokeWith recoverWith updateWith witnessNewWith witnessUpdateWith
  refine ⟨?_, ?_, reg', ?_⟩
  · rw [finish_events]
    exact one _ gi _ _ _
  · rw [finish_events]
    exact one _ gi _ _ _
  clear reg'
  generalize getIndex m maxCredNum = gidx at *
  generalize (fun j => witnessIndex m maxCredNum j revIdx) = widx at *
  refine ⟨?_, one widx wi _ _ _, ?_⟩
  · simp only
    split
    · exact one gidx gi _ _ _
    · exact one gidx gi _ _ _
    · rename_i hr
      exact two gidx gi _ _ _ _ _ _ hr
  · simp only
    split
    · exact one widx wi _ _ _
    · exact one widx wi _ _ _
    · rename_i hr
      split
      · exact two widx wi _ _ _ _ _ _ hr
      · exact two widx wi _ _ _ _ _ _ hr
      · exact two widx wi _ _ _ _ _ _ hr

/-- What the protocol means: at most one tail is out at any time. -/
theorem protocol_at_most_one {es : List Event} (h : Protocol es) (k : Nat) :
    (es.take k).countP (fun e => match e with | .take _ => true | .put _ => false) ≤
      (es.take k).countP (fun e => match e with | .take _ => false | .put _ => true) + 1 ∧
    (es.take k).countP (fun e => match e with | .take _ => false | .put _ => true) ≤
      (es.take k).countP (fun e => match e with | .take _ => true | .put _ => false) := by
  obtain ⟨ids, h⟩ := h
  induction ids generalizing es k with
  | nil =>
    rcases h with rfl | ⟨i, rfl⟩
    · simp [balanced]
    · rcases k with _ | k <;> simp [balanced]
  | cons i ids ih =>
    have : ∃ es', (es' = balanced ids ∨ ∃ j, es' = balanced ids ++ [.take j]) ∧ es = .take i :: .put i :: es' := by
      rcases h with rfl | ⟨j, rfl⟩
      · exact ⟨_, Or.inl rfl, by simp [balanced]⟩
      · exact ⟨_, Or.inr ⟨j, rfl⟩, by simp [balanced]⟩
    obtain ⟨es', h', rfl⟩ := this
    rcases k with _ | _ | k
    · simp
    · simp
    · have := ih k h'
      simp only [List.take_succ_cons, List.countP_cons]
      simpa using this

/-! ## C136 -/

/-- C136, witnesses: whatever happens, a failed update leaves the witness as it was. -/
theorem witness_update_atomic (m : Overflow) (env : Env G2) (h : List Event) (omega : G2) (revIdx maxCredNum : Nat)
    (rs is : List Nat) (hr : (witnessUpdateWith m env h omega revIdx maxCredNum rs is).result ≠ .ok ()) :
    (witnessUpdateWith m env h omega revIdx maxCredNum rs is).state = omega := by
  unfold witnessUpdateWith at *
  simp only at *
  split
  · rfl
  · rfl
  · rename_i h1
    rw [h1] at hr
    simp only at hr
    split
    · rfl
    · rfl
    · rename_i h2
      rw [h2] at hr
      simp at hr

theorem loop_single (env : Env G2) (idx : Nat → Res String Nat) (f : S → G2 → S) (i id : Nat) (hi : idx i = .ok id)
    (h : List Event) (s : S) : accessLoop env idx f [i] h s = accessTailWith env h id f s := by
  simp only [accessLoop, hi, accessTailWith]
  cases env h id with
  | refused => rfl
  | panics => rfl
  | given t ok => cases ok <;> rfl

/-- The operations on one credential in terms of one access. -/
theorem revoke_eq (m : Overflow) (env : Env G2) (h : List Event) (reg : G2) (maxCredNum revIdx id : Nat)
    (hi : getIndex m maxCredNum revIdx = .ok id) (d : Done G2 Unit)
    (hd : d = accessTailWith env h id (fun a t => a - t) reg) :
    revokeWith m env h reg maxCredNum revIdx = ⟨d.events, d.state, do
      d.result
      pure { prevAccum := some reg, accum := d.state, issued := ∅, revoked := {revIdx} }⟩ := by
  unfold revokeWith
  rw [hd, ← loop_single env _ _ revIdx id hi]
  generalize accessLoop env (getIndex m maxCredNum) _ [revIdx] h reg = d
  rfl

theorem recover_eq (m : Overflow) (env : Env G2) (h : List Event) (reg : G2) (maxCredNum revIdx id : Nat)
    (hi : getIndex m maxCredNum revIdx = .ok id) (d : Done G2 Unit)
    (hd : d = accessTailWith env h id (fun a t => a + t) reg) :
    recoverWith m env h reg maxCredNum revIdx = ⟨d.events, d.state, do
      d.result
      pure { prevAccum := some reg, accum := d.state, issued := {revIdx}, revoked := ∅ }⟩ := by
  unfold recoverWith
  rw [hd, ← loop_single env _ _ revIdx id hi]
  generalize accessLoop env (getIndex m maxCredNum) _ [revIdx] h reg = d
  rfl

theorem register_eq (m : Overflow) (env : Env G2) (h : List Event) (reg : G2) (maxCredNum revIdx id : Nat)
    (hi : getIndex m maxCredNum revIdx = .ok id) (d : Done G2 Unit)
    (hd : d = accessTailWith env h id (fun a t => a + t) reg) :
    registerWith m env h reg maxCredNum revIdx false = ⟨d.events, d.state, do
      d.result
      pure (some { prevAccum := some reg, accum := d.state, issued := {revIdx}, revoked := ∅ })⟩ := by
  unfold registerWith
  rw [if_neg (by decide)]
  rw [hd, ← loop_single env _ _ revIdx id hi]
  generalize accessLoop env (getIndex m maxCredNum) _ [revIdx] h reg = d
  rfl

theorem register_default (m : Overflow) (env : Env G2) (h : List Event) (reg : G2) (maxCredNum revIdx id : Nat)
    (hi : getIndex m maxCredNum revIdx = .ok id) :
    registerWith m env h reg maxCredNum revIdx true = ⟨h, reg, .ok none⟩ := by
  unfold registerWith
  rw [if_pos rfl, hi]
  rfl

/-- C136, one credential: the result of revoking, for all behaviours of the caller's functions.  If the tail is refused
the registry is as before; if the tail was given but could not be put back, an error is returned, no delta is published
and the registry has been changed. -/
theorem revoke_cases (m : Overflow) (env : Env G2) (h : List Event) (reg : G2) (maxCredNum revIdx id : Nat)
    (hi : getIndex m maxCredNum revIdx = .ok id) :
    (env h id = .refused → (revokeWith m env h reg maxCredNum revIdx).state = reg ∧
      ∃ e, (revokeWith m env h reg maxCredNum revIdx).result = .err e) ∧
    (∀ t, env h id = .given t true → (revokeWith m env h reg maxCredNum revIdx).state = reg - t ∧
      (revokeWith m env h reg maxCredNum revIdx).result =
        .ok { prevAccum := some reg, accum := reg - t, issued := ∅, revoked := {revIdx} }) ∧
    (∀ t, env h id = .given t false → (revokeWith m env h reg maxCredNum revIdx).state = reg - t ∧
      ∃ e, (revokeWith m env h reg maxCredNum revIdx).result = .err e) := by
  rw [revoke_eq m env h reg maxCredNum revIdx id hi _ rfl]
  refine ⟨fun he => ?_, fun t he => ?_, fun t he => ?_⟩ <;>
    simp [accessTailWith, he]

/-- The same for restoring a credential. -/
theorem recover_cases (m : Overflow) (env : Env G2) (h : List Event) (reg : G2) (maxCredNum revIdx id : Nat)
    (hi : getIndex m maxCredNum revIdx = .ok id) :
    (env h id = .refused → (recoverWith m env h reg maxCredNum revIdx).state = reg ∧
      ∃ e, (recoverWith m env h reg maxCredNum revIdx).result = .err e) ∧
    (∀ t, env h id = .given t true → (recoverWith m env h reg maxCredNum revIdx).state = reg + t ∧
      (recoverWith m env h reg maxCredNum revIdx).result =
        .ok { prevAccum := some reg, accum := reg + t, issued := {revIdx}, revoked := ∅ }) ∧
    (∀ t, env h id = .given t false → (recoverWith m env h reg maxCredNum revIdx).state = reg + t ∧
      ∃ e, (recoverWith m env h reg maxCredNum revIdx).result = .err e) := by
  rw [recover_eq m env h reg maxCredNum revIdx id hi _ rfl]
  refine ⟨fun he => ?_, fun t he => ?_, fun t he => ?_⟩ <;>
    simp [accessTailWith, he]

/-- The same for issuing a credential; in a registry with issuance by default no tail is needed. -/
theorem register_cases (m : Overflow) (env : Env G2) (h : List Event) (reg : G2) (maxCredNum revIdx id : Nat)
    (hi : getIndex m maxCredNum revIdx = .ok id) :
    ((registerWith m env h reg maxCredNum revIdx true).state = reg ∧
      (registerWith m env h reg maxCredNum revIdx true).result = .ok none) ∧
    (env h id = .refused → (registerWith m env h reg maxCredNum revIdx false).state = reg ∧
      ∃ e, (registerWith m env h reg maxCredNum revIdx false).result = .err e) ∧
    (∀ t, env h id = .given t true → (registerWith m env h reg maxCredNum revIdx false).state = reg + t ∧
      (registerWith m env h reg maxCredNum revIdx false).result =
        .ok (some { prevAccum := some reg, accum := reg + t, issued := {revIdx}, revoked := ∅ })) ∧
    (∀ t, env h id = .given t false → (registerWith m env h reg maxCredNum revIdx false).state = reg + t ∧
      ∃ e, (registerWith m env h reg maxCredNum revIdx false).result = .err e) := by
  rw [register_eq m env h reg maxCredNum revIdx id hi _ rfl, register_default m env h reg maxCredNum revIdx id hi]
  refine ⟨⟨rfl, rfl⟩, fun he => ?_, fun t he => ?_, fun t he => ?_⟩ <;>
    simp [accessTailWith, he]

theorem loop_one_atomic (env : Env G2) (idx : Nat → Res String Nat) (i : Nat) (hidx : ∀ e, idx i ≠ .err e)
    (f : S → G2 → S) (h : List Event) (s : S) (hput : ∀ h i t, env h i ≠ .given t false) :
    (accessLoop env idx f [i] h s).result = .ok () ∨ (accessLoop env idx f [i] h s).state = s := by
  cases hi : idx i with
  | err e => exact absurd hi (hidx e)
  | panic => right; simp [accessLoop, hi]
  | ok id =>
    rw [loop_single env _ _ i id hi]
    unfold accessTailWith
    cases he : env h id with
    | refused => right; rfl
    | panics => right; rfl
    | given t ok =>
      cases ok with
      | false => exact absurd he (hput h id t)
      | true => left; rfl

/-- C136 for functions that can always put a tail back: an operation on one credential that fails has not changed the
registry. -/
theorem single_atomic_partial (m : Overflow) (env : Env G2) (h : List Event) (reg : G2) (maxCredNum revIdx : Nat)
    (byDefault : Bool) (hput : ∀ h i t, env h i ≠ .given t false) :
    ((∀ d, (revokeWith m env h reg maxCredNum revIdx).result ≠ .ok d) →
      (revokeWith m env h reg maxCredNum revIdx).state = reg) ∧
    ((∀ d, (recoverWith m env h reg maxCredNum revIdx).result ≠ .ok d) →
      (recoverWith m env h reg maxCredNum revIdx).state = reg) ∧
    ((∀ d, (registerWith m env h reg maxCredNum revIdx byDefault).result ≠ .ok d) →
      (registerWith m env h reg maxCredNum revIdx byDefault).state = reg) := by
  have key : ∀ f : G2 → G2 → G2,
      (accessLoop env (getIndex m maxCredNum) f [revIdx] h reg).result = .ok () ∨
      (accessLoop env (getIndex m maxCredNum) f [revIdx] h reg).state = reg := fun f =>
    loop_one_atomic env _ revIdx (getIndex_not_err m maxCredNum revIdx) f h reg hput
  have fin : ∀ {α : Type} (d : Done G2 Unit) (mk : G2 → α), (∀ x, (d.finish mk).result ≠ .ok x) →
      d.result ≠ .ok () := by
    intro α d mk hx hd
    exact hx (mk d.state) (by simp [Done.finish, hd])
  have k1 := key (fun a t => a - t)
  have k2 := key (fun a t => a + t)
  refine ⟨?_, ?_, ?_⟩
  · unfold revokeWith
    rw [finish_state]
    exact fun hr => k1.resolve_left (fin _ _ hr)
  · unfold recoverWith
    rw [finish_state]
    exact fun hr => k2.resolve_left (fin _ _ hr)
  · cases byDefault with
    | true => rw [registerWith_true]; exact fun _ => rfl
    | false =>
      rw [registerWith_false, finish_state]
      exact fun hr => k2.resolve_left (fin _ _ hr)

theorem foldl_add (l : List G2) (s : G2) : l.foldl (fun a t => a + t) s = s + l.sum := by
  induction l generalizing s with
  | nil => simp
  | cons t l ih => rw [List.foldl_cons, ih, List.sum_cons, add_assoc]

theorem foldl_sub (l : List G2) (s : G2) : l.foldl (fun a t => a - t) s = s - l.sum := by
  induction l generalizing s with
  | nil => simp
  | cons t l ih => rw [List.foldl_cons, ih, List.sum_cons, sub_sub]

theorem balanced_append (a b : List Nat) : balanced (a ++ b) = balanced a ++ balanced b := by
  simp [balanced]

theorem Served.append {env : Env G2} : ∀ {h : List Event} {l l' : List (Nat × G2)}, Served env h l →
    Served env (h ++ balanced (l.map Prod.fst)) l' → Served env h (l ++ l')
  | h, [], l', _, h2 => by simpa [balanced] using h2
  | h, (i, t) :: l, l', h1, h2 => by
    cases h1 with
    | cons _ _ _ _ he hs =>
      refine Served.cons h i t _ he (hs.append ?_)
      simpa [balanced] using h2

/-- How a loop of accesses ends, read as an equation for the registry. -/
theorem Ends.state_eq {env : Env G2} {f : S → G2 → S} {h : List Event} {s : S} {l : List (Nat × G2)} {d : Done S Unit}
    (he : Ends env f h s l d) :
    (d.result = .ok () → d.events = h ++ balanced (l.map Prod.fst)) ∧
    (d.state = (l.map Prod.snd).foldl f s ∨ d.result ≠ .ok () ∧
      ∃ i t, env (h ++ balanced (l.map Prod.fst)) i = .given t false ∧ d.state = f ((l.map Prod.snd).foldl f s) t) := by
  cases he with
  | done => exact ⟨fun _ => rfl, Or.inl rfl⟩
  | refused i h' => exact ⟨by simp, Or.inl rfl⟩
  | unput i t h' => exact ⟨by simp, Or.inr ⟨by simp, i, t, h', rfl⟩⟩
  | panics i h' => exact ⟨by simp, Or.inl rfl⟩
  | overflow => exact ⟨by simp, Or.inl rfl⟩

/-- The two loops of an update. -/
theorem loops_end (env : Env G2) (idx : Nat → Res String Nat) (hidx : ∀ i e, idx i ≠ .err e) (reg : G2)
    (is rs : List Nat) (h : List Event) (d d' : Done G2 Unit)
    (hd : d = accessLoop env idx (fun a t => a + t) is h reg)
    (hd' : d' = accessLoop env idx (fun a t => a - t) rs d.events d.state) :
    (d.result ≠ .ok () → ∃ la, Served env h la ∧
      (d.state = reg + (la.map Prod.snd).sum ∨
        ∃ i t, env (h ++ balanced (la.map Prod.fst)) i = .given t false ∧
          d.state = reg + (la.map Prod.snd).sum + t)) ∧
    (d.result = .ok () → ∃ la lb, Served env h (la ++ lb) ∧ is.map idx = la.map (fun x => .ok x.1) ∧
      (d'.result = .ok () → rs.map idx = lb.map (fun x => .ok x.1) ∧
        d'.state = reg + (la.map Prod.snd).sum - (lb.map Prod.snd).sum) ∧
      (d'.state = reg + (la.map Prod.snd).sum - (lb.map Prod.snd).sum ∨
        ∃ i t, env (h ++ balanced ((la ++ lb).map Prod.fst)) i = .given t false ∧
          d'.state = reg + (la.map Prod.snd).sum - (lb.map Prod.snd).sum - t)) := by
  obtain ⟨la, hsa, hea, hia⟩ := accessLoop_ends env idx hidx (fun a t => a + t) is h reg
  rw [← hd] at hea hia
  obtain ⟨hev, hst⟩ := hea.state_eq
  rw [foldl_add] at hst
  constructor
  · intro _
    refine ⟨la, hsa, ?_⟩
    rcases hst with hst | ⟨-, i, t, h1, h2⟩
    · exact Or.inl hst
    · exact Or.inr ⟨i, t, h1, h2⟩
  · intro hok
    obtain ⟨lb, hsb, heb, hib⟩ := accessLoop_ends env idx hidx (fun a t => a - t) rs d.events d.state
    rw [← hd'] at heb hib
    obtain ⟨-, hst'⟩ := heb.state_eq
    have hst1 : d.state = reg + (la.map Prod.snd).sum := by
      rcases hst with hst | ⟨hne, -⟩
      · exact hst
      · exact absurd hok hne
    rw [foldl_sub, hst1, hev hok] at hst'
    rw [hev hok] at hsb
    refine ⟨la, lb, hsa.append hsb, hia hok, fun hok' => ⟨hib hok', ?_⟩, ?_⟩
    · rcases hst' with hst' | ⟨hne, -⟩
      · exact hst'
      · exact absurd hok' hne
    · rcases hst' with hst' | ⟨-, i, t, h1, h2⟩
      · exact Or.inl hst'
      · refine Or.inr ⟨i, t, ?_, h2⟩
        rw [List.map_append, balanced_append, ← List.append_assoc]
        exact h1

/-- C136, several credentials: whatever the caller's functions do, the registry is left as it was, plus the tails served
for newly issued credentials, minus the tails served for revoked ones (`la`, `lb`), and changed once more by a tail that
could not be put back.  If the update succeeds these are exactly the tails of the credentials asked for. -/
theorem update_cases (m : Overflow) (env : Env G2) (h : List Event) (reg : G2) (maxCredNum : Nat)
    (issued revoked : Finset Nat) : ∃ la lb : List (Nat × G2), Served env h (la ++ lb) ∧
      (∀ δ, (updateWith m env h reg maxCredNum issued revoked).result = .ok δ →
        (issued.sort (· ≤ ·)).map (getIndex m maxCredNum) = la.map (fun x => .ok x.1) ∧
        (revoked.sort (· ≤ ·)).map (getIndex m maxCredNum) = lb.map (fun x => .ok x.1) ∧
        (updateWith m env h reg maxCredNum issued revoked).state =
          reg + (la.map Prod.snd).sum - (lb.map Prod.snd).sum ∧
        δ = { prevAccum := some reg, accum := reg + (la.map Prod.snd).sum - (lb.map Prod.snd).sum,
              issued := issued, revoked := revoked }) ∧
      ((updateWith m env h reg maxCredNum issued revoked).state =
          reg + (la.map Prod.snd).sum - (lb.map Prod.snd).sum ∨
        ∃ i t, env (h ++ balanced ((la ++ lb).map Prod.fst)) i = .given t false ∧
          ((updateWith m env h reg maxCredNum issued revoked).state =
              reg + (la.map Prod.snd).sum - (lb.map Prod.snd).sum + t ∨
            (updateWith m env h reg maxCredNum issued revoked).state =
              reg + (la.map Prod.snd).sum - (lb.map Prod.snd).sum - t)) := by
  have gi : ∀ i e, getIndex m maxCredNum i ≠ .err e := fun i e => getIndex_not_err m maxCredNum i e
  unfold updateWith
  generalize getIndex m maxCredNum = idx at *
  simp only
  generalize hd : accessLoop env idx (fun a t => a + t) (issued.sort (· ≤ ·)) h reg = d
  generalize hd' : accessLoop env idx (fun a t => a - t) (revoked.sort (· ≤ ·)) d.events d.state = d'
  obtain ⟨h1, h2⟩ := loops_end env idx gi reg _ _ h d d' hd.symm hd'.symm
  cases hr : d.result with
  | ok u =>
    obtain ⟨la, lb, hs, hia, hib, hst⟩ := h2 hr
    simp only [finish_state, finish_result]
    refine ⟨la, lb, hs, ?_, ?_⟩
    · intro δ hδ
      cases hr' : d'.result with
      | ok u =>
        obtain ⟨h3, h4⟩ := hib hr'
        rw [hr', Res.ok_bind, h4] at hδ
        exact ⟨hia, h3, h4, (Res.ok.inj hδ).symm⟩
      | err e => rw [hr'] at hδ; cases hδ
      | panic => rw [hr'] at hδ; cases hδ
    · rcases hst with hst | ⟨i, t, h3, h4⟩
      · exact Or.inl hst
      · exact Or.inr ⟨i, t, h3, Or.inr h4⟩
  | err e =>
    obtain ⟨la, hs, hst⟩ := h1 (by rw [hr]; simp)
    refine ⟨la, [], by simpa using hs, by simp, ?_⟩
    rcases hst with hst | ⟨i, t, h3, h4⟩
    · exact Or.inl (by simpa using hst)
    · exact Or.inr ⟨i, t, by simpa using h3, Or.inl (by simpa using h4)⟩
  | panic =>
    obtain ⟨la, hs, hst⟩ := h1 (by rw [hr]; simp)
    refine ⟨la, [], by simpa using hs, by simp, ?_⟩
    rcases hst with hst | ⟨i, t, h3, h4⟩
    · exact Or.inl (by simpa using hst)
    · exact Or.inr ⟨i, t, by simpa using h3, Or.inl (by simpa using h4)⟩

theorem loop_second_refused (env : Env G2) (idx : Nat → Res String Nat) (f : S → G2 → S) (i j a b : Nat)
    (rest : List Nat) (h : List Event) (s : S) (t : G2) (hi : idx i = .ok a) (hj : idx j = .ok b)
    (h1 : env h a = .given t true) (h2 : env (h ++ [.take a, .put a]) b = .refused) :
    accessLoop env idx f (i :: j :: rest) h s =
      ⟨h ++ [.take a, .put a] ++ [.take b], f s t, .err "take_tail failed"⟩ := by
  simp [accessLoop, hi, hj, accessTailWith, h1, h2]

/-- C136 fails for an update even when tails can always be put back: if the first tail is served and the second is
refused, an error is returned and the first tail stays added to the registry. -/
theorem update_not_atomic (m : Overflow) (env : Env G2) (h : List Event) (reg : G2) (maxCredNum : Nat)
    (issued revoked : Finset Nat) (i j a b : Nat) (rest : List Nat) (t : G2)
    (hs : issued.sort (· ≤ ·) = i :: j :: rest)
    (hi : getIndex m maxCredNum i = .ok a) (hj : getIndex m maxCredNum j = .ok b)
    (h1 : env h a = .given t true) (h2 : env (h ++ [.take a, .put a]) b = .refused) :
    (updateWith m env h reg maxCredNum issued revoked).state = reg + t ∧
    ∃ e, (updateWith m env h reg maxCredNum issued revoked).result = .err e := by
  unfold updateWith
  rw [hs, loop_second_refused env _ _ i j a b rest h reg t hi hj h1 h2]
  exact ⟨rfl, _, rfl⟩

/-- What a failure to put a tail back does to the registry's history.  The issuer revokes a credential, the tail cannot
be put back, nothing is published.  Revoking again takes the tail away a second time, and the delta published then
cannot be merged with any delta that leads to the last published registry. -/
theorem revoke_retry [DecidableEq G2] (m : Overflow) (env : Env G2) (h : List Event) (reg : G2)
    (maxCredNum revIdx id : Nat) (hi : getIndex m maxCredNum revIdx = .ok id) (t : G2) (ht : t ≠ 0)
    (h1 : env h id = .given t false) (h2 : env (h ++ [.take id, .put id]) id = .given t true) :
    let first := revokeWith m env h reg maxCredNum revIdx
    let second := revokeWith m env first.events first.state maxCredNum revIdx
    (∃ e, first.result = .err e) ∧ second.state = reg - t - t ∧
    ∃ δ, second.result = .ok δ ∧ ∀ last : Delta G2, last.accum = reg → ∃ e, last.merge δ = .err e := by
  have hev : (revokeWith m env h reg maxCredNum revIdx).events = h ++ [.take id, .put id] := by
    rw [revoke_eq m env h reg maxCredNum revIdx id hi _ rfl]
    simp [accessTailWith, h1]
  obtain ⟨-, -, hb⟩ := revoke_cases m env h reg maxCredNum revIdx id hi
  obtain ⟨hst, herr⟩ := hb t h1
  obtain ⟨-, hc, -⟩ := revoke_cases m env (h ++ [.take id, .put id]) (reg - t) maxCredNum revIdx id hi
  obtain ⟨hst', hres⟩ := hc t h2
  simp only
  rw [hev, hst]
  refine ⟨herr, hst', _, hres, fun last hl => ?_⟩
  unfold Delta.merge
  simp only
  rw [if_pos]
  · exact ⟨_, rfl⟩
  · rw [hl]
    intro he
    exact ht (by simpa using he.symm)

/-! ## The caller's functions of Rust -/

theorem loop_simple (idx : Nat → Res String Nat) (f : S → G2 → S) (tails : List G2)
    (sum : List Nat → S → Res String S) (hnil : ∀ s, sum [] s = .ok s)
    (hcons : ∀ i is s, sum (i :: is) s = do
      let index ← idx i
      let tail ← accessTail tails index
      sum is (f s tail)) :
    ∀ (is : List Nat) (h : List Event) (s : S),
      (do (accessLoop (simpleEnv tails) idx f is h s).result
          pure (accessLoop (simpleEnv tails) idx f is h s).state) = sum is s
  | [], h, s => by simp [accessLoop, hnil]
  | i :: is, h, s => by
    rw [hcons]
    cases hi : idx i with
    | err e => simp [accessLoop, hi]
    | panic => simp [accessLoop, hi]
    | ok id =>
      cases ht : tails[id]? with
      | none => simp [accessLoop, hi, accessTailWith, simpleEnv, ht, accessTail]
      | some t =>
        have := loop_simple idx f tails sum hnil hcons is (h ++ [.take id, .put id]) (f s t)
        simpa [accessLoop, hi, accessTailWith, simpleEnv, ht, accessTail] using this

theorem finish_do {α : Type} (d : Done S Unit) (mk : S → α) :
    (do let x ← (d.finish mk).result; pure ((d.finish mk).state, x) : Res String (S × α)) =
      (do let s ← (do d.result; pure d.state); pure (s, mk s)) := by
  unfold Done.finish
  cases d.result <;> rfl

theorem one_simple {α : Type} (idx : Nat → Res String Nat) (f : S → G2 → S) (tails : List G2) (mk : S → α) (i : Nat)
    (h : List Event) (s : S) :
    (do let x ← ((accessLoop (simpleEnv tails) idx f [i] h s).finish mk).result
        pure (((accessLoop (simpleEnv tails) idx f [i] h s).finish mk).state, x) : Res String (S × α)) =
      (do let index ← idx i
          let tail ← accessTail tails index
          let s' := f s tail
          pure (s', mk s')) := by
  rw [finish_do]
  cases hi : idx i with
  | err e => simp [accessLoop, hi]
  | panic => simp [accessLoop, hi]
  | ok id => cases ht : tails[id]? <;> simp [accessLoop, hi, accessTailWith, simpleEnv, ht, accessTail]

/-- With a list of tails in memory the operations are those of `Verif/CL/Revocation.lean`. -/
theorem revoke_simple (m : Overflow) (tails : List G2) (h : List Event) (reg : G2) (maxCredNum revIdx : Nat) :
    (do let δ ← (revokeWith m (simpleEnv tails) h reg maxCredNum revIdx).result
        pure ((revokeWith m (simpleEnv tails) h reg maxCredNum revIdx).state, δ)) =
      revokeCredential m reg maxCredNum revIdx tails := by
  unfold revokeWith revokeCredential
  exact one_simple _ _ tails _ revIdx h reg

theorem recover_simple (m : Overflow) (tails : List G2) (h : List Event) (reg : G2) (maxCredNum revIdx : Nat) :
    (do let δ ← (recoverWith m (simpleEnv tails) h reg maxCredNum revIdx).result
        pure ((recoverWith m (simpleEnv tails) h reg maxCredNum revIdx).state, δ)) =
      recoveryCredential m reg maxCredNum revIdx tails := by
  unfold recoverWith recoveryCredential
  exact one_simple _ _ tails _ revIdx h reg

theorem register_simple (m : Overflow) (tails : List G2) (h : List Event) (reg : G2) (maxCredNum revIdx : Nat)
    (byDefault : Bool) :
    (do let δ ← (registerWith m (simpleEnv tails) h reg maxCredNum revIdx byDefault).result
        pure ((registerWith m (simpleEnv tails) h reg maxCredNum revIdx byDefault).state, δ)) =
      registerIssued m reg maxCredNum revIdx byDefault tails := by
  cases byDefault with
  | true =>
    rw [registerWith_true]
    unfold registerIssued
    simp only [if_true]
    cases getIndex m maxCredNum revIdx <;> rfl
  | false =>
    rw [registerWith_false]
    unfold registerIssued
    simp only [Bool.false_eq_true, if_false]
    exact one_simple _ _ tails _ revIdx h reg

theorem update_simple (m : Overflow) (tails : List G2) (h : List Event) (reg : G2) (maxCredNum : Nat)
    (issued revoked : Finset Nat) :
    (do let δ ← (updateWith m (simpleEnv tails) h reg maxCredNum issued revoked).result
        pure ((updateWith m (simpleEnv tails) h reg maxCredNum issued revoked).state, δ)) =
      updateRevocationRegistry m reg maxCredNum issued revoked tails := by
  unfold updateWith updateRevocationRegistry
  have ha := loop_simple (getIndex m maxCredNum) (fun a t => a + t) tails (addTails m maxCredNum tails)
    (fun _ => rfl) (fun _ _ _ => rfl) (issued.sort (· ≤ ·)) h reg
  have hb := loop_simple (getIndex m maxCredNum) (fun a t => a - t) tails (subTails m maxCredNum tails)
    (fun _ => rfl) (fun _ _ _ => rfl) (revoked.sort (· ≤ ·))
  rw [← ha]
  simp only
  generalize accessLoop (simpleEnv tails) (getIndex m maxCredNum) (fun a t => a + t) (issued.sort (· ≤ ·)) h reg = d
  cases hr : d.result with
  | err e => rfl
  | panic => rfl
  | ok u =>
    simp only [Res.ok_bind, Res.pure_eq]
    rw [← hb d.events d.state]
    exact finish_do _ _

theorem witnessNew_simple (m : Overflow) (tails : List G2) (h : List Event) (revIdx maxCredNum : Nat)
    (byDefault : Bool) (delta : Delta G2) :
    (witnessNewWith m (simpleEnv tails) h revIdx maxCredNum byDefault delta).result =
      witnessNew m revIdx maxCredNum byDefault delta tails := by
  unfold witnessNewWith witnessNew
  simp only
  rw [← loop_simple (fun j => witnessIndex m maxCredNum j revIdx) (fun a t => a + t) tails
    (witnessSum m maxCredNum revIdx tails) (fun _ => rfl) (fun _ _ _ => rfl) _ h 0, finish_result]
  rfl

theorem witnessUpdate_simple (m : Overflow) (tails : List G2) (h : List Event) (omega : G2) (revIdx maxCredNum : Nat)
    (delta : Delta G2) :
    (do let _ ← (witnessUpdateWith m (simpleEnv tails) h omega revIdx maxCredNum
            ((delta.revoked.filter (· ≠ revIdx)).sort (· ≤ ·)) ((delta.issued.filter (· ≠ revIdx)).sort (· ≤ ·))).result
        pure (witnessUpdateWith m (simpleEnv tails) h omega revIdx maxCredNum
          ((delta.revoked.filter (· ≠ revIdx)).sort (· ≤ ·)) ((delta.issued.filter (· ≠ revIdx)).sort (· ≤ ·))).state) =
      witnessUpdate m omega revIdx maxCredNum delta tails := by
  unfold witnessUpdateWith witnessUpdate
  have ha := loop_simple (fun j => witnessIndex m maxCredNum j revIdx) (fun a t => a + t) tails
    (witnessSum m maxCredNum revIdx tails) (fun _ => rfl) (fun _ _ _ => rfl)
  have hd := ha ((delta.revoked.filter (· ≠ revIdx)).sort (· ≤ ·)) h 0
  simp only
  generalize accessLoop (simpleEnv tails) (fun j => witnessIndex m maxCredNum j revIdx) (fun a t => a + t)
    ((delta.revoked.filter (· ≠ revIdx)).sort (· ≤ ·)) h 0 = d at *
  rw [← hd]
  cases hr : d.result with
  | err e => rfl
  | panic => rfl
  | ok u =>
    simp only [Res.ok_bind, Res.pure_eq]
    have hd' := ha ((delta.issued.filter (· ≠ revIdx)).sort (· ≤ ·)) d.events 0
    generalize accessLoop (simpleEnv tails) (fun j => witnessIndex m maxCredNum j revIdx) (fun a t => a + t)
      ((delta.issued.filter (· ≠ revIdx)).sort (· ≤ ·)) d.events 0 = d' at *
    rw [← hd']
    cases hr' : d'.result <;> rfl

/-! ## Examples -/

/-- a caller whose `put_tail` fails the first time -/
def flaky (t : ℤ) : Env ℤ := fun h i => .given (t * (i : ℤ)) (h ≠ [])

/-- a caller that gives one tail and refuses the next -/
def refusing (t : ℤ) : Env ℤ := fun h i => if h = [] then .given (t * (i : ℤ)) true else .refused

theorem getIndex_example : getIndex .checked 5 2 = .ok 4 ∧ getIndex .checked 5 1 = .ok 5 := by
  decide

/-- The hypotheses of `revoke_retry` are met: the registry 100 loses the tail 12 twice. -/
example : (revokeWith .checked (flaky 3) (revokeWith .checked (flaky 3) [] 100 5 2).events
    (revokeWith .checked (flaky 3) [] 100 5 2).state 5 2).state = 76 := by
  have h := (revoke_retry .checked (flaky 3) [] 100 5 2 4 getIndex_example.1 12 (by decide) rfl rfl).2.1
  rw [h]
  decide

theorem sort_example : ({1, 2} : Finset ℕ).sort (· ≤ ·) = [1, 2] := by
  have h : ([1, 2] : List ℕ).toFinset.sort (· ≤ ·) = [1, 2] :=
    (List.toFinset_sort (r := (· ≤ ·)) (l := [1, 2]) (by decide)).2 (by simp)
  simpa using h

/-- The hypotheses of `update_not_atomic` are met. -/
example : (updateWith .checked (refusing 3) [] 100 5 {1, 2} ∅).state = 115 ∧
    ∃ e, (updateWith .checked (refusing 3) [] 100 5 {1, 2} ∅).result = .err e :=
  update_not_atomic .checked (refusing 3) [] 100 5 {1, 2} ∅ 1 2 5 4 [] 15
    sort_example getIndex_example.2 getIndex_example.1 rfl rfl

/-- The hypotheses of `single_atomic_partial` are met by a caller that refuses everything. -/
example : (revokeWith .checked (fun _ _ => .refused) [] (100 : ℤ) 5 2).state = 100 :=
  ((revoke_cases .checked (fun _ _ => .refused) [] (100 : ℤ) 5 2 4 getIndex_example.1).1 rfl).1

/-- A failed update of a witness. -/
example : (witnessUpdateWith .checked (refusing 3) [] 100 1 5 [] [2, 3]).state = 100 ∧
    (witnessUpdateWith .checked (refusing 3) [] 100 1 5 [] [2, 3]).result ≠ .ok () := by
  have hr : (witnessUpdateWith .checked (refusing 3) [] 100 1 5 [] [2, 3]).result ≠ .ok () := by decide
  exact ⟨witness_update_atomic _ _ _ _ _ _ _ _ hr, hr⟩

end Verif.CL.Rev
