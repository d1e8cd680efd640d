import Verif.Props.Resample
/-!
# Signatures with a nonce and a challenge from one hash function: the counting behind C201

A signer with a key draws, for a message `m`, a nonce from the hash of a secret prefix and `m`, asks the hash function for the challenge at the place
`pt` that nonce and message determine, and answers with `sg nonce challenge m`.  A forger asks for hash values and signatures, each question depending
on the answers so far.  The hash function is a uniformly random function `f : Q → Dg`.

* World 1, the real one: the key is `f (kq s)` for a random secret `s`; one half of it, `pre`, is the prefix, and nonces are `f (nq pre m)`.
* World 2: key and nonces are drawn independently of `f`.
* World 3: the forger is run by `simulate`, which knows neither key nor nonces: it draws what the signer would answer and the challenges,
  and answers hash questions accordingly.
-/
set_option linter.unusedSectionVars false
set_option linter.unusedVariables false
set_option linter.unusedSimpArgs false
namespace Verif.Schnorr
open Verif.Forking

/-- a forger: it outputs something, or asks for a hash value or for a signature, and continues with the answer -/
inductive Forger (Q Dg M Sg O : Type) where
  | out (o : O)
  | hash (x : Q) (next : Dg → Forger Q Dg M Sg O)
  | sign (m : M) (next : Sg → Forger Q Dg M Sg O)

section
variable {Q Dg M Sg O : Type}

/-- what it outputs with the hash function `H` and the signer `G` -/
def Forger.run (H : Q → Dg) (G : M → Sg) : Forger Q Dg M Sg O → O
  | .out o => o
  | .hash x next => (next (H x)).run H G
  | .sign m next => (next (G m)).run H G

/-- what it has had signed -/
def Forger.signed (H : Q → Dg) (G : M → Sg) : Forger Q Dg M Sg O → List M
  | .out _ => []
  | .hash x next => (next (H x)).signed H G
  | .sign m next => m :: (next (G m)).signed H G

/-- what it has had hashed -/
def Forger.hashed (H : Q → Dg) (G : M → Sg) : Forger Q Dg M Sg O → List Q
  | .out _ => []
  | .hash x next => x :: (next (H x)).hashed H G
  | .sign m next => (next (G m)).hashed H G

/-- whatever the answers, it asks at most `q` questions -/
def Forger.AtMost : Nat → Forger Q Dg M Sg O → Prop
  | _, .out _ => True
  | 0, .hash _ _ => False
  | 0, .sign _ _ => False
  | q + 1, .hash _ next => ∀ h, (next h).AtMost q
  | q + 1, .sign _ next => ∀ s, (next s).AtMost q

theorem asked_le (H : Q → Dg) (G : M → Sg) : ∀ (q : Nat) (A : Forger Q Dg M Sg O), A.AtMost q → (A.hashed H G).length + (A.signed H G).length ≤ q
  | q, .out o, h => Nat.zero_le _
  | 0, .hash x next, h => h.elim
  | 0, .sign m next, h => h.elim
  | q + 1, .hash x next, h => by
    have := asked_le H G q (next (H x)) (h _)
    simp only [Forger.hashed, Forger.signed, List.length_cons]; omega
  | q + 1, .sign m next, h => by
    have := asked_le H G q (next (G m)) (h _)
    simp only [Forger.hashed, Forger.signed, List.length_cons]; omega

/-- the same answers to the questions asked -/
theorem run_congr (H H' : Q → Dg) (G G' : M → Sg) : ∀ A : Forger Q Dg M Sg O, (∀ x ∈ A.hashed H G, H' x = H x) → (∀ m ∈ A.signed H G, G' m = G m) →
    A.run H' G' = A.run H G ∧ A.signed H' G' = A.signed H G
  | .out o, _, _ => ⟨rfl, rfl⟩
  | .hash x next, h1, h2 => by
    simp only [Forger.hashed, Forger.signed, List.mem_cons, forall_eq_or_imp] at h1 h2
    have := run_congr H H' G G' (next (H x)) h1.2 h2
    simpa only [Forger.run, Forger.signed, h1.1] using this
  | .sign m next, h1, h2 => by
    simp only [Forger.hashed, Forger.signed, List.mem_cons, forall_eq_or_imp] at h1 h2
    obtain ⟨a, b⟩ := run_congr H H' G G' (next (G m)) h1 h2.2
    simp only [Forger.run, Forger.signed, h2.1, a, b, and_self]

/-- the same answers to the first `i` signing questions lead to the same `i + 1` first signing questions -/
theorem signed_prefix (H : Q → Dg) (G G' : M → Sg) : ∀ (A : Forger Q Dg M Sg O) (i : Nat), (∀ m ∈ (A.signed H G).take i, G' m = G m) →
    (A.signed H G').take (i + 1) = (A.signed H G).take (i + 1)
  | .out o, i, _ => rfl
  | .hash x next, i, h => signed_prefix H G G' (next (H x)) i h
  | .sign m next, 0, h => rfl
  | .sign m next, i + 1, h => by
    simp only [Forger.signed, List.take_succ_cons, List.mem_cons, forall_eq_or_imp] at h ⊢
    rw [h.1, signed_prefix H G G' (next (G m)) i h.2]

end

/-! ## From world 2 to world 3 -/

section
variable {C Q Dg M Sg O : Type} [DecidableEq Q] [DecidableEq M]

/-- what the simulation answers a hash question with: the challenge drawn for `m`, if the question is the one the signature of `m` is made with -/
def answer (mof : Q → Option M) (simPt : Dg → Dg → M → Q) (Z K : M → Dg) (x : Q) : Option Dg :=
  match mof x with
  | some m => if x = simPt (K m) (Z m) m then some (K m) else none
  | none => none

/-- the forger run without the key, from the answers `Z` and challenges `K` drawn for every message; gives up where the answer drawn cannot be used -/
def simulate (mof : Q → Option M) (good : Dg → Prop) [DecidablePred good] (simPt : Dg → Dg → M → Q) (simSg : Dg → Dg → M → Sg) (Z K : M → Dg) :
    Forger Q Dg M Sg O → Prover Q Dg (Option O)
  | .out o => .out (some o)
  | .hash x next =>
    match answer mof simPt Z K x with
    | some k => simulate mof good simPt simSg Z K (next k)
    | none => .ask x (fun h => simulate mof good simPt simSg Z K (next h))
  | .sign m next => if good (Z m) then simulate mof good simPt simSg Z K (next (simSg (K m) (Z m) m)) else .out none

theorem simulate_atMost (mof : Q → Option M) (good : Dg → Prop) [DecidablePred good] (simPt : Dg → Dg → M → Q) (simSg : Dg → Dg → M → Sg) (Z K : M → Dg) :
    ∀ (q : Nat) (A : Forger Q Dg M Sg O), A.AtMost q → (simulate mof good simPt simSg Z K A).AtMost q
  | q, .out o, h => by cases q <;> trivial
  | 0, .hash x next, h => h.elim
  | 0, .sign m next, h => h.elim
  | q + 1, .hash x next, h => by
    unfold simulate
    split
    · rename_i k _
      have := simulate_atMost mof good simPt simSg Z K q (next k) (h _)
      exact atMost_succ q _ this
    · exact fun c => simulate_atMost mof good simPt simSg Z K q (next c) (h _)
  | q + 1, .sign m next, h => by
    unfold simulate
    split
    · exact atMost_succ q _ (simulate_atMost mof good simPt simSg Z K q _ (h _))
    · trivial
where
  atMost_succ : ∀ (q : Nat) (A : Prover Q Dg (Option O)), A.AtMost q → A.AtMost (q + 1)
    | q, .out o, h => trivial
    | 0, .ask d next, h => h.elim
    | q + 1, .ask d next, h => fun c => atMost_succ q (next c) (h c)

/-- the hash function that the simulation answers with -/
def programmed (mof : Q → Option M) (simPt : Dg → Dg → M → Q) (Z K : M → Dg) (f : Q → Dg) : Q → Dg :=
  fun x => (answer mof simPt Z K x).getD (f x)

/-- The simulation is faithful if the answers drawn can be used. -/
theorem simulate_run (mof : Q → Option M) (good : Dg → Prop) [DecidablePred good] (simPt : Dg → Dg → M → Q) (simSg : Dg → Dg → M → Sg) (Z K : M → Dg)
    (f : Q → Dg) (G : M → Sg) (hG : ∀ m, good (Z m) → G m = simSg (K m) (Z m) m) :
    ∀ A : Forger Q Dg M Sg O, (∀ m ∈ A.signed (programmed mof simPt Z K f) G, good (Z m)) →
      (simulate mof good simPt simSg Z K A).run f = some (A.run (programmed mof simPt Z K f) G)
  | .out o, _ => rfl
  | .hash x next, h => by
    unfold simulate
    simp only [Forger.signed, Forger.run] at h ⊢
    split
    · rename_i k hk
      have e : programmed mof simPt Z K f x = k := by simp [programmed, hk]
      rw [e] at h ⊢
      exact simulate_run mof good simPt simSg Z K f G hG (next k) h
    · rename_i hk
      have e : programmed mof simPt Z K f x = f x := by simp [programmed, hk]
      rw [e] at h ⊢
      simp only [Prover.run]
      exact simulate_run mof good simPt simSg Z K f G hG (next (f x)) h
  | .sign m next, h => by
    unfold simulate
    simp only [Forger.signed, Forger.run, List.mem_cons, forall_eq_or_imp] at h ⊢
    rw [if_pos h.1, ← hG m h.1]
    exact simulate_run mof good simPt simSg Z K f G hG (next (G m)) h.2

variable [Fintype C] [Fintype Q] [Fintype Dg] [Fintype M] [Nonempty Dg]

/-- World 2 against world 3. -/
theorem world3 (A : C → Forger Q Dg M Sg O) (q : Nat) (hq : ∀ c, (A c).AtMost q)
    (mof : Q → Option M) (good : Dg → Prop) [DecidablePred good]
    (pt : C → Dg → M → Q) (sg : C → Dg → Dg → M → Sg) (simPt : C → Dg → Dg → M → Q) (simSg : C → Dg → Dg → M → Sg) (shift : C → Dg → Dg → Dg)
    (hmof : ∀ c d m, mof (pt c d m) = some m)
    (hshift : ∀ c k, Function.Injective (shift c k)) (hgood : ∀ c k z, good (shift c k z) ↔ good z)
    (hpt : ∀ c k z m, simPt c k z m = pt c (shift c k z) m)
    (hsg : ∀ c k z m, good z → simSg c k z m = sg c (shift c k z) k m)
    (question : C → O → Q) (about : O → M) (win : C → O → Dg → Prop)
    (hwin : ∀ c o h m, win c o h → mof (question c o) = some m → m = about o)
    (b w : Nat) (hb : ∀ l : Finset Dg, (∀ d ∈ l, ¬ good d) → l.card ≤ b)
    (hw : ∀ (c : C) (x : Q) (m : M) (l : Finset Dg), (∀ d ∈ l, pt c d m = x) → l.card ≤ w) :
    let G (c : C) (N : M → Dg) (f : Q → Dg) : M → Sg := fun m => sg c (N m) (f (pt c (N m) m)) m
    pr (fun ω : C × (M → Dg) × (Q → Dg) =>
      let o := (A ω.1).run ω.2.2 (G ω.1 ω.2.1 ω.2.2)
      win ω.1 o (ω.2.2 (question ω.1 o)) ∧ about o ∉ (A ω.1).signed ω.2.2 (G ω.1 ω.2.1 ω.2.2)) - (q * b + w : ℚ) / Fintype.card Dg ≤
    pr (fun ω : (C × (M → Dg) × (M → Dg)) × (Q → Dg) =>
      ∃ o, (simulate mof good (simPt ω.1.1) (simSg ω.1.1) ω.1.2.1 ω.1.2.2 (A ω.1.1)).run ω.2 = some o ∧ win ω.1.1 o (ω.2 (question ω.1.1 o))) := by
  classical
  intro G
  -- a signed message with a nonce that the simulation cannot handle
  let badA : C × (M → Dg) × (Q → Dg) → Prop := fun ω => ∃ m ∈ (A ω.1).signed ω.2.2 (G ω.1 ω.2.1 ω.2.2), ¬ good (ω.2.1 m)
  -- a forgery with the nonce that the signer would have used
  let badB : C × (M → Dg) × (Q → Dg) → Prop := fun ω =>
    let o := (A ω.1).run ω.2.2 (G ω.1 ω.2.1 ω.2.2)
    about o ∉ (A ω.1).signed ω.2.2 (G ω.1 ω.2.1 ω.2.2) ∧ pt ω.1 (ω.2.1 (about o)) (about o) = question ω.1 o
  have hGu : ∀ (c : C) (N : M → Dg) (f : Q → Dg) (x m : M) (h : Dg), m ≠ x → G c (Function.update N x h) f m = G c N f m := by
    intro c N f x m h hm
    simp only [G, Function.update_of_ne hm]
  let e : (C × (Q → Dg)) × (M → Dg) → C × (M → Dg) × (Q → Dg) := fun ω => (ω.1.1, ω.2, ω.1.2)
  have he : Function.Bijective e := by
    refine ⟨?_, ?_⟩
    · rintro ⟨⟨a, b⟩, c⟩ ⟨⟨a', b'⟩, c'⟩ h
      simp only [e, Prod.mk.injEq] at h
      obtain ⟨rfl, rfl, rfl⟩ := h
      rfl
    · rintro ⟨a, b, c⟩
      exact ⟨((a, c), b), rfl⟩
  have hA : pr badA ≤ q * ((b : ℚ) / Fintype.card Dg) := by
    let ev (i : Nat) (ω : C × (M → Dg) × (Q → Dg)) : Prop :=
      ∃ m, ((A ω.1).signed ω.2.2 (G ω.1 ω.2.1 ω.2.2))[i]? = some m ∧ m ∉ ((A ω.1).signed ω.2.2 (G ω.1 ω.2.1 ω.2.2)).take i ∧ ¬ good (ω.2.1 m)
    refine (pr_mono (Q := fun ω => ∃ i < q, ev i ω) ?_).trans (pr_exists_lt q _ _ ?_)
    · rintro ⟨c, N, f⟩ ⟨m, hm, hg⟩
      dsimp only [ev] at hm hg ⊢
      have hl := asked_le f (G c N f) q (A c) (hq c)
      have hlt := List.idxOf_lt_length_iff.2 hm
      refine ⟨((A c).signed f (G c N f)).idxOf m, by omega, m, ?_, ?_, hg⟩
      · rw [List.getElem?_eq_getElem hlt, List.getElem_idxOf hlt]
      · intro hin
        rw [List.mem_take_iff_idxOf_lt] at hin
        · exact lt_irrefl _ hin
        · exact hm
    · intro i _
      rw [← pr_bijective e he]
      refine pr_fiber _ _ (by positivity) ?_
      rintro ⟨c, f⟩
      let d : (M → Dg) → Option M := fun N =>
        match ((A c).signed f (G c N f))[i]? with
        | some m => if m ∈ ((A c).signed f (G c N f)).take i then none else some m
        | none => none
      have hdspec : ∀ N x, d N = some x ↔ ((A c).signed f (G c N f))[i]? = some x ∧ x ∉ ((A c).signed f (G c N f)).take i := by
        intro N x
        simp only [d]
        split
        · rename_i m hm
          rw [hm]
          split
          · rename_i h
            simp only [reduceCtorEq, false_iff, not_and, Option.some.injEq]
            rintro rfl h'
            exact h' h
          · rename_i h
            simp only [Option.some.injEq]
            constructor
            · rintro rfl; exact ⟨rfl, h⟩
            · exact fun h => h.1
        · rename_i hm
          rw [hm]; simp
      refine (pr_mono (Q := fun N : M → Dg => ∃ x, d N = some x ∧ (fun _ h => ¬ good h) N (N x)) ?_).trans
        (resample d ?_ (fun _ h => ¬ good h) (fun _ _ _ _ => rfl) b ?_)
      · rintro N ⟨m, h1, h2, h3⟩
        exact ⟨m, (hdspec N m).2 ⟨h1, h2⟩, h3⟩
      · intro N x h hx
        rw [hdspec] at hx ⊢
        have hp := signed_prefix f (G c N f) (G c (Function.update N x h) f) (A c) i (fun m hm => hGu c N f x m h (fun e => hx.2 (e ▸ hm)))
        have h4 : ∀ l : List M, l[i]? = (l.take (i + 1))[i]? := fun l => by
          rw [List.getElem?_take_of_lt (Nat.lt_succ_self _)]
        have h5 : ∀ l : List M, l.take i = (l.take (i + 1)).take i := fun l => by
          rw [List.take_take, Nat.min_eq_left (Nat.le_succ _)]
        rw [h4, hp, ← h4, h5, hp, ← h5]
        exact hx
      · intro N x _ l hl
        exact hb l hl
  have hB : pr badB ≤ (w : ℚ) / Fintype.card Dg := by
    rw [← pr_bijective e he]
    refine pr_fiber _ _ (by positivity) ?_
    rintro ⟨c, f⟩
    let o : (M → Dg) → O := fun N => (A c).run f (G c N f)
    let S : (M → Dg) → List M := fun N => (A c).signed f (G c N f)
    let d : (M → Dg) → Option M := fun N => if about (o N) ∈ S N then none else some (about (o N))
    have hdspec : ∀ N x, d N = some x ↔ about (o N) ∉ S N ∧ about (o N) = x := by
      intro N x
      simp only [d]
      split
      · rename_i h; simp [h]
      · rename_i h; simp [h]
    have hsame : ∀ N x h, d N = some x → o (Function.update N x h) = o N ∧ S (Function.update N x h) = S N := by
      intro N x h hx
      rw [hdspec] at hx
      refine run_congr f f _ _ (A c) (fun _ _ => rfl) (fun m hm => hGu c N f x m h ?_)
      rintro rfl
      exact hx.1 (hx.2 ▸ hm)
    refine (pr_mono (Q := fun N : M → Dg => ∃ x, d N = some x ∧ (fun N h => pt c h (about (o N)) = question c (o N)) N (N x)) ?_).trans
      (resample d ?_ (fun N h => pt c h (about (o N)) = question c (o N)) ?_ w ?_)
    · rintro N ⟨h1, h2⟩
      exact ⟨_, (hdspec N _).2 ⟨h1, rfl⟩, h2⟩
    · intro N x h hx
      have := hsame N x h hx
      rw [hdspec] at hx ⊢
      rw [this.1, this.2]; exact hx
    · intro N x h hx
      have := hsame N x h hx
      funext k
      rw [this.1]
    · intro N x _ l hl
      exact hw c (question c (o N)) (about (o N)) l hl
  -- what is left is the simulation
  let W : C × (M → Dg) × (Q → Dg) → Prop := fun ω =>
    let o := (A ω.1).run ω.2.2 (G ω.1 ω.2.1 ω.2.2)
    (win ω.1 o (ω.2.2 (question ω.1 o)) ∧ about o ∉ (A ω.1).signed ω.2.2 (G ω.1 ω.2.1 ω.2.2)) ∧ ¬ badA ω ∧ ¬ badB ω
  have hsplit := (pr_mono (P := fun ω : C × (M → Dg) × (Q → Dg) =>
      let o := (A ω.1).run ω.2.2 (G ω.1 ω.2.1 ω.2.2)
      win ω.1 o (ω.2.2 (question ω.1 o)) ∧ about o ∉ (A ω.1).signed ω.2.2 (G ω.1 ω.2.1 ω.2.2)) (Q := fun ω => W ω ∨ (badA ω ∨ badB ω)) (fun ω h => by
        by_cases h1 : badA ω
        · exact Or.inr (Or.inl h1)
        by_cases h2 : badB ω
        · exact Or.inr (Or.inr h2)
        exact Or.inl ⟨h, h1, h2⟩)).trans (pr_or _ _)
  have hAB := pr_or badA badB
  let Φ : (C × (M → Dg) × (M → Dg)) × (Q → Dg) → (C × (M → Dg) × (Q → Dg)) × (M → Dg) := fun ω =>
    let N : M → Dg := fun m => shift ω.1.1 (ω.1.2.2 m) (ω.1.2.1 m)
    ((ω.1.1, N, programmed mof (simPt ω.1.1) ω.1.2.1 ω.1.2.2 ω.2), fun m => ω.2 (pt ω.1.1 (N m) m))
  have hans : ∀ (c : C) (Z K : M → Dg) (m : M), answer mof (simPt c) Z K (pt c (shift c (K m) (Z m)) m) = some (K m) := by
    intro c Z K m
    simp only [answer, hmof, hpt, if_true]
  have hans' : ∀ (c : C) (Z K : M → Dg) (x : Q) (k : Dg), answer mof (simPt c) Z K x = some k →
      ∃ m, mof x = some m ∧ x = pt c (shift c (K m) (Z m)) m ∧ k = K m := by
    intro c Z K x k h
    simp only [answer] at h
    split at h
    · rename_i m hm
      split at h
      · rename_i hx
        rw [hpt] at hx
        exact ⟨m, hm, hx, (Option.some.inj h).symm⟩
      · cases h
    · cases h
  have hprog : ∀ (c : C) (Z K : M → Dg) (f : Q → Dg) (m : M), programmed mof (simPt c) Z K f (pt c (shift c (K m) (Z m)) m) = K m := by
    intro c Z K f m
    simp only [programmed, hans, Option.getD_some]
  have hΦ : Function.Injective Φ := by
    rintro ⟨⟨c, Z, K⟩, f⟩ ⟨⟨c', Z', K'⟩, f'⟩ h
    simp only [Φ, Prod.mk.injEq] at h
    obtain ⟨⟨rfl, hN, hf⟩, hk⟩ := h
    have hN' : ∀ m, shift c (K m) (Z m) = shift c (K' m) (Z' m) := fun m => congrFun hN m
    have hK : K = K' := by
      funext m
      rw [← hprog c Z K f m, hf, hN', hprog]
    subst hK
    have hZ : Z = Z' := by
      funext m
      exact hshift c (K m) (hN' m)
    subst hZ
    have hf0 : f = f' := by
      funext x
      cases hx : answer mof (simPt c) Z K x with
      | none =>
        have := congrFun hf x
        simpa only [programmed, hx, Option.getD_none] using this
      | some k =>
        obtain ⟨m, _, h2, _⟩ := hans' c Z K x k hx
        have := congrFun hk m
        rw [h2]; exact this
    rw [hf0]
  have hΦb : Function.Bijective Φ := by
    rw [Fintype.bijective_iff_injective_and_card]
    refine ⟨hΦ, ?_⟩
    simp only [Fintype.card_prod]
    ring
  have hW : pr W ≤ pr (fun ω : (C × (M → Dg) × (M → Dg)) × (Q → Dg) =>
      ∃ o, (simulate mof good (simPt ω.1.1) (simSg ω.1.1) ω.1.2.1 ω.1.2.2 (A ω.1.1)).run ω.2 = some o ∧ win ω.1.1 o (ω.2 (question ω.1.1 o))) := by
    rw [← pr_fst (B := M → Dg) W, ← pr_bijective Φ hΦb]
    refine pr_mono ?_
    rintro ⟨⟨c, Z, K⟩, f⟩ ⟨⟨h1, h2⟩, h3, h4⟩
    dsimp only [Φ] at h1 h2 h3 h4 ⊢
    set N : M → Dg := fun m => shift c (K m) (Z m) with hN
    set F := programmed mof (simPt c) Z K f with hF
    have hG : ∀ m, good (Z m) → G c N F m = simSg c (K m) (Z m) m := by
      intro m hm
      simp only [G, hN, hF, hprog]
      exact (hsg c (K m) (Z m) m hm).symm
    refine ⟨_, simulate_run mof good (simPt c) (simSg c) Z K f (G c N F) hG (A c) ?_, ?_⟩
    · intro m hm
      by_contra hg
      refine h3 ⟨m, hm, ?_⟩
      dsimp only
      rw [hN, hgood]; exact hg
    · have hq0 : F (question c ((A c).run F (G c N F))) = f (question c ((A c).run F (G c N F))) := by
        cases hx : answer mof (simPt c) Z K (question c ((A c).run F (G c N F))) with
        | none => simp only [hF, programmed] at hx ⊢; rw [hx]; rfl
        | some k =>
          obtain ⟨m, e1, e2, _⟩ := hans' c Z K _ k hx
          have := hwin c _ _ m h1 e1
          subst this
          exact absurd ⟨h2, e2.symm⟩ h4
      rw [← hq0]
      exact h1
  have e1 : (q * b + w : ℚ) / Fintype.card Dg = q * ((b : ℚ) / Fintype.card Dg) + w / Fintype.card Dg := by ring
  rw [e1]
  dsimp only at hsplit ⊢
  linarith
end

/-! ## From world 1 to world 2 -/

section
variable {R S Lo Pre Q Dg M Sg O : Type} [DecidableEq Q] [DecidableEq S] [DecidableEq Pre] [Fintype R] [Fintype S] [Fintype Lo] [Fintype Pre] [Fintype Q] [Fintype Dg]
  [Fintype M] [DecidableEq M] [Nonempty Dg] [Nonempty S] [Nonempty Pre]

/-- World 1 against world 2. -/
theorem world2 (A : R × Lo → Forger Q Dg M Sg O) (q : Nat) (hq : ∀ c, (A c).AtMost q) (split : Dg ≃ Lo × Pre)
    (kq : S → Q) (nq : Pre → M → Q) (kof : Q → Option S) (preOf : Q → Option Pre) (hk : ∀ s, kof (kq s) = some s) (hpre : ∀ p m, preOf (nq p m) = some p)
    (hnq : ∀ p, Function.Injective (nq p))
    (pt : R × Lo → Dg → M → Q) (sg : R × Lo → Dg → Dg → M → Sg) (question : R × Lo → O → Q) (about : O → M) (win : R × Lo → O → Dg → Prop) :
    let G (c : R × Lo) (N : M → Dg) (f : Q → Dg) : M → Sg := fun m => sg c (N m) (f (pt c (N m) m)) m
    pr (fun ω : R × S × (Q → Dg) =>
      let f := ω.2.2
      let key := split (f (kq ω.2.1))
      let c := (ω.1, key.1)
      let N := fun m => f (nq key.2 m)
      let o := (A c).run f (G c N f)
      win c o (f (question c o)) ∧ about o ∉ (A c).signed f (G c N f)) - ((q + 1 : ℚ) / Fintype.card S + (q + 2 : ℚ) / Fintype.card Pre) ≤
    pr (fun ω : (R × Lo) × (M → Dg) × (Q → Dg) =>
      let o := (A ω.1).run ω.2.2 (G ω.1 ω.2.1 ω.2.2)
      win ω.1 o (ω.2.2 (question ω.1 o)) ∧ about o ∉ (A ω.1).signed ω.2.2 (G ω.1 ω.2.1 ω.2.2)) := by
  classical
  intro G
  -- the places of the hash function that matter in world 2
  let X : (R × Lo) × (M → Dg) × (Q → Dg) → List Q := fun ω =>
    (A ω.1).hashed ω.2.2 (G ω.1 ω.2.1 ω.2.2) ++ ((A ω.1).signed ω.2.2 (G ω.1 ω.2.1 ω.2.2)).map (fun m => pt ω.1 (ω.2.1 m) m) ++
      [question ω.1 ((A ω.1).run ω.2.2 (G ω.1 ω.2.1 ω.2.2))]
  have hX : ∀ ω, (X ω).length ≤ q + 1 := by
    intro ω
    have := asked_le ω.2.2 (G ω.1 ω.2.1 ω.2.2) q (A ω.1) (hq ω.1)
    simp only [X, List.length_append, List.length_map, List.length_cons, List.length_nil]
    omega
  let Ω2 := ((R × Lo) × (M → Dg) × (Q → Dg)) × (S × Pre)
  let bad1 : Ω2 → Prop := fun ω => kq ω.2.1 ∈ X ω.1
  let bad2 : Ω2 → Prop := fun ω => ∃ y ∈ X ω.1, ∃ m, nq ω.2.2 m = y
  let bad3 : Ω2 → Prop := fun ω => ∃ m, nq ω.2.2 m = kq ω.2.1
  have hb1 : pr bad1 ≤ (q + 1 : ℚ) / Fintype.card S := by
    refine pr_fiber _ _ (by positivity) (fun a => ?_)
    let sw : Pre × S → S × Pre := fun p => (p.2, p.1)
    have hsw : Function.Bijective sw := ⟨by rintro ⟨a, b⟩ ⟨c, d⟩ h; simp only [sw, Prod.mk.injEq] at h; obtain ⟨rfl, rfl⟩ := h; rfl, fun ⟨a, b⟩ => ⟨(b, a), rfl⟩⟩
    rw [← pr_bijective sw hsw]
    refine pr_fiber _ _ (by positivity) (fun p => ?_)
    have := pr_card (fun s => bad1 (a, sw (p, s))) (q + 1) (((X a).filterMap kof).toFinset)
      ((List.toFinset_card_le _).trans ((List.length_filterMap_le _ _).trans (hX a)))
      (fun s hs => by
        rw [List.mem_toFinset, List.mem_filterMap]
        exact ⟨_, hs, hk s⟩)
    push_cast at this
    exact this
  have hb2 : pr bad2 ≤ (q + 1 : ℚ) / Fintype.card Pre := by
    refine pr_fiber _ _ (by positivity) (fun a => ?_)
    refine pr_fiber _ _ (by positivity) (fun s => ?_)
    have := pr_card (fun p => bad2 (a, (s, p))) (q + 1) (((X a).filterMap preOf).toFinset)
      ((List.toFinset_card_le _).trans ((List.length_filterMap_le _ _).trans (hX a)))
      (fun p hp => by
        obtain ⟨y, hy, m, rfl⟩ := hp
        rw [List.mem_toFinset, List.mem_filterMap]
        exact ⟨_, hy, hpre p m⟩)
    push_cast at this
    exact this
  have hb3 : pr bad3 ≤ (1 : ℚ) / Fintype.card Pre := by
    refine pr_fiber _ _ (by positivity) (fun a => ?_)
    refine pr_fiber _ _ (by positivity) (fun s => ?_)
    have := pr_card (fun p => bad3 (a, (s, p))) 1 (([kq s].filterMap preOf).toFinset)
      ((List.toFinset_card_le _).trans (List.length_filterMap_le _ _))
      (fun p hp => by
        obtain ⟨m, hm⟩ := hp
        rw [List.mem_toFinset, List.mem_filterMap]
        exact ⟨_, List.mem_singleton.2 rfl, by rw [← hm]; exact hpre p m⟩)
    push_cast at this
    exact this
  -- the hash function of world 1
  let mq : Pre → Q → Option M := fun p x => if h : ∃ m, nq p m = x then some h.choose else none
  have hmq : ∀ p m, mq p (nq p m) = some m := by
    intro p m
    have h : ∃ m', nq p m' = nq p m := ⟨m, rfl⟩
    simp only [mq, h, dite_true, Option.some.injEq]
    exact hnq p h.choose_spec
  have hmqn : ∀ p x, (∀ m, nq p m ≠ x) → mq p x = none := by
    intro p x h
    have : ¬ ∃ m', nq p m' = x := fun ⟨m, hm⟩ => h m hm
    simp only [mq, this, dite_false]
  let F : Ω2 → Q → Dg := fun ω x =>
    if x = kq ω.2.1 then split.symm (ω.1.1.2, ω.2.2) else
      match mq ω.2.2 x with
      | some m => ω.1.2.1 m
      | none => ω.1.2.2 x
  let Ψ : Ω2 → (R × S × (Q → Dg)) × (Dg × (M → Dg)) := fun ω =>
    ((ω.1.1.1, ω.2.1, F ω), (ω.1.2.2 (kq ω.2.1), fun m => if nq ω.2.2 m = kq ω.2.1 then ω.1.2.1 m else ω.1.2.2 (nq ω.2.2 m)))
  have hFk : ∀ ω, F ω (kq ω.2.1) = split.symm (ω.1.1.2, ω.2.2) := fun ω => by simp only [F, if_true]
  have hFn : ∀ ω m, nq ω.2.2 m ≠ kq ω.2.1 → F ω (nq ω.2.2 m) = ω.1.2.1 m := fun ω m h => by simp only [F, if_neg h, hmq]
  have hFo : ∀ ω x, x ≠ kq ω.2.1 → (∀ m, nq ω.2.2 m ≠ x) → F ω x = ω.1.2.2 x := fun ω x h h' => by simp only [F, if_neg h, hmqn _ _ h']
  have hΨ : Function.Injective Ψ := by
    rintro ⟨⟨⟨ρ, lo⟩, N, f⟩, s, p⟩ ⟨⟨⟨ρ', lo'⟩, N', f'⟩, s', p'⟩ h
    simp only [Ψ, Prod.mk.injEq] at h
    obtain ⟨⟨rfl, rfl, hF⟩, h0, hN⟩ := h
    have h1 := congrFun hF (kq s)
    have a1 := hFk (((ρ, lo), N, f), s, p)
    have a2 := hFk (((ρ, lo'), N', f'), s, p')
    dsimp only at a1 a2 h0 hN
    rw [a1, a2] at h1
    have h2 := split.symm.injective h1
    simp only [Prod.mk.injEq] at h2
    obtain ⟨rfl, rfl⟩ := h2
    have hNN : N = N' := by
      funext m
      by_cases hm : nq p m = kq s
      · have := congrFun hN m
        simpa only [hm, if_true] using this
      · have := congrFun hF (nq p m)
        rw [hFn (((ρ, lo), N, f), s, p) m hm, hFn (((ρ, lo), N', f'), s, p) m hm] at this
        exact this
    subst hNN
    have hff : f = f' := by
      funext x
      by_cases hx : x = kq s
      · rw [hx]; exact h0
      by_cases hy : ∃ m, nq p m = x
      · obtain ⟨m, rfl⟩ := hy
        have := congrFun hN m
        simpa only [hx, if_false] using this
      · have hy' : ∀ m, nq p m ≠ x := fun m hm => hy ⟨m, hm⟩
        have := congrFun hF x
        rw [hFo (((ρ, lo), N, f), s, p) x hx hy', hFo (((ρ, lo), N, f'), s, p) x hx hy'] at this
        exact this
    rw [hff]
  have hcard : Fintype.card Dg = Fintype.card Lo * Fintype.card Pre := by
    rw [Fintype.card_congr split, Fintype.card_prod]
  have hΨb : Function.Bijective Ψ := by
    rw [Fintype.bijective_iff_injective_and_card]
    refine ⟨hΨ, ?_⟩
    simp only [Ω2, Fintype.card_prod]
    rw [hcard]
    ring
  let E1 : R × S × (Q → Dg) → Prop := fun ω =>
      let f := ω.2.2
      let key := split (f (kq ω.2.1))
      let c := (ω.1, key.1)
      let N := fun m => f (nq key.2 m)
      let o := (A c).run f (G c N f)
      win c o (f (question c o)) ∧ about o ∉ (A c).signed f (G c N f)
  let E2 : (R × Lo) × (M → Dg) × (Q → Dg) → Prop := fun ω =>
      let o := (A ω.1).run ω.2.2 (G ω.1 ω.2.1 ω.2.2)
      win ω.1 o (ω.2.2 (question ω.1 o)) ∧ about o ∉ (A ω.1).signed ω.2.2 (G ω.1 ω.2.1 ω.2.2)
  have hmain : pr E1 ≤ pr (fun ω : Ω2 => E2 ω.1 ∨ (bad1 ω ∨ (bad2 ω ∨ bad3 ω))) := by
    rw [← pr_fst (B := Dg × (M → Dg)) E1, ← pr_bijective Ψ hΨb]
    refine pr_mono ?_
    intro ω hω
    by_cases n1 : bad1 ω
    · exact Or.inr (Or.inl n1)
    by_cases n2 : bad2 ω
    · exact Or.inr (Or.inr (Or.inl n2))
    by_cases n3 : bad3 ω
    · exact Or.inr (Or.inr (Or.inr n3))
    left
    have hF : ∀ x ∈ X ω.1, F ω x = ω.1.2.2 x := by
      intro x hx
      refine hFo ω x ?_ (fun m hm => n2 ⟨x, hx, m, hm⟩)
      rintro rfl
      exact n1 hx
    have hn : ∀ m, F ω (nq ω.2.2 m) = ω.1.2.1 m := fun m => hFn ω m (fun h => n3 ⟨m, h⟩)
    obtain ⟨⟨⟨ρ, lo⟩, N, f⟩, s, p⟩ := ω
    have hk' := hFk (((ρ, lo), N, f), s, p)
    dsimp only [Ψ, E1, E2] at hω hF hn hk' ⊢
    set F' := F (((ρ, lo), N, f), s, p)
    rw [hk', Equiv.apply_symm_apply] at hω
    dsimp only at hω
    have hn' : (fun m => F' (nq p m)) = N := funext hn
    rw [hn'] at hω
    obtain ⟨e1, e2⟩ := run_congr f F' (G (ρ, lo) N f) (G (ρ, lo) N F') (A (ρ, lo)) (fun x hx => hF x (by simp [X, hx])) (fun m hm => by
      simp only [G]
      rw [hF (pt (ρ, lo) (N m) m) (by
        simp only [X, List.mem_append, List.mem_map]
        exact Or.inl (Or.inr ⟨m, hm, rfl⟩))])
    rw [e1, e2, hF _ (by simp [X])] at hω
    exact hω
  have h1 := pr_or (fun ω : Ω2 => E2 ω.1) (fun ω => bad1 ω ∨ (bad2 ω ∨ bad3 ω))
  have h2 := pr_or bad1 (fun ω => bad2 ω ∨ bad3 ω)
  have h3 := pr_or bad2 bad3
  have h4 : pr (fun ω : Ω2 => E2 ω.1) = pr E2 := pr_fst E2
  have e : (q + 2 : ℚ) / Fintype.card Pre = (q + 1 : ℚ) / Fintype.card Pre + 1 / Fintype.card Pre := by ring
  rw [e]
  change pr E1 - _ ≤ pr E2
  linarith
end

/-! ## Two runs -/

/-- the same prover, whose output also says which one it is -/
def tag {D H O T : Type} (t : T) : Prover D H O → Prover D H (T × O)
  | .out o => .out (t, o)
  | .ask d next => .ask d (fun h => tag t (next h))

section
variable {D H O T : Type}

theorem tag_run (t : T) (f : D → H) : ∀ A : Prover D H O, (tag t A).run f = (t, A.run f)
  | .out o => rfl
  | .ask d next => tag_run t f (next (f d))

theorem tag_asked (t : T) (f : D → H) : ∀ A : Prover D H O, (tag t A).asked f = A.asked f
  | .out o => rfl
  | .ask d next => congrArg (d :: ·) (tag_asked t f (next (f d)))

theorem tag_atMost (t : T) : ∀ (q : Nat) (A : Prover D H O), A.AtMost q → (tag t A).AtMost q
  | _, .out o, h => by unfold tag Prover.AtMost; trivial
  | 0, .ask d next, h => h.elim
  | q + 1, .ask d next, h => fun c => tag_atMost t q (next c) (h c)
end

section
variable {T D H O X : Type} [DecidableEq D] [Fintype T] [Fintype D] [Fintype H]

/-- the question about an output, if there is one -/
def ask (x0 : D) (question : O → D) : Option O → D
  | some o => question o
  | none => x0

/-- Two runs of provers that may give up: with what probability both succeed, with the same question and answers that differ even after `κ`. -/
theorem twice (P : T → Prover D H (Option O)) (q : Nat) (hq : ∀ t, (P t).AtMost q) (x0 : D) (question : T → O → D) (win : T → O → H → Prop)
    (κ : H → X) (w : Nat) (hκ : ∀ (k : X) (l : Finset H), (∀ d ∈ l, κ d = k) → l.card ≤ w) :
    let ε := pr fun ω : T × (D → H) => ∃ o, (P ω.1).run ω.2 = some o ∧ win ω.1 o (ω.2 (question ω.1 o))
    ε ^ 2 / (q + 1) - (ε + w) / Fintype.card H ≤
      pr fun ω : T × (D → H) × (D → H) =>
        let f := ω.2.1
        let g := second (ask x0 (question ω.1)) (P ω.1) ω.2.1 ω.2.2
        ∃ o o', (P ω.1).run f = some o ∧ (P ω.1).run g = some o' ∧ question ω.1 o = question ω.1 o' ∧ win ω.1 o (f (question ω.1 o)) ∧
          win ω.1 o' (g (question ω.1 o')) ∧ κ (f (question ω.1 o)) ≠ κ (g (question ω.1 o')) := by
  classical
  intro ε
  let str : T × Option O → D := fun o => ask x0 (question o.1) o.2
  let win' : T × Option O → H → Prop := fun o h => ∃ o', o.2 = some o' ∧ win o.1 o' h
  have hf := forking str win' (fun t => tag t (P t)) q (fun t => tag_atMost t q (P t) (hq t))
  dsimp only at hf
  have hε : (pr fun ω : T × (D → H) => win' ((tag ω.1 (P ω.1)).run ω.2) (ω.2 (str ((tag ω.1 (P ω.1)).run ω.2)))) = ε := by
    simp only [ε]
    congr 1
    funext ω
    simp only [win', str, tag_run, eq_iff_iff]
    refine exists_congr fun o => and_congr_right fun h => ?_
    rw [h]; rfl
  rw [hε] at hf
  have hsecond : ∀ (t : T) (f f' : D → H), second str (tag t (P t)) f f' = second (ask x0 (question t)) (P t) f f' := by
    intro t f f'
    simp only [second, tag_run, tag_asked]
    rfl
  let same : T × (D → H) × (D → H) → Prop := fun ω =>
    κ (ω.2.2 (str (ω.1, (P ω.1).run ω.2.1))) = κ (ω.2.1 (str (ω.1, (P ω.1).run ω.2.1)))
  have hsame : pr same ≤ (w : ℚ) / Fintype.card H := by
    refine pr_fiber _ _ (by positivity) (fun t => pr_fiber _ _ (by positivity) (fun f => ?_))
    refine (pr_mono (Q := fun f' : D → H => ∃ x, (fun _ => some (str (t, (P t).run f))) f' = some x ∧
      (fun _ h => κ h = κ (f (str (t, (P t).run f)))) f' (f' x)) ?_).trans
      (resample (fun _ => some (str (t, (P t).run f))) (fun _ _ _ h => h) (fun _ h => κ h = κ (f (str (t, (P t).run f)))) (fun _ _ _ _ => rfl) w ?_)
    · intro f' h
      exact ⟨_, rfl, h⟩
    · intro _ _ _ l hl
      exact hκ _ l hl
  have hcover := (pr_mono (P := fun ω : T × (D → H) × (D → H) => Forks str win' (tag ω.1 (P ω.1)) ω.2.1 ω.2.2)
    (Q := fun ω => (let f := ω.2.1
        let g := second (ask x0 (question ω.1)) (P ω.1) ω.2.1 ω.2.2
        ∃ o o', (P ω.1).run f = some o ∧ (P ω.1).run g = some o' ∧ question ω.1 o = question ω.1 o' ∧ win ω.1 o (f (question ω.1 o)) ∧
          win ω.1 o' (g (question ω.1 o')) ∧ κ (f (question ω.1 o)) ≠ κ (g (question ω.1 o'))) ∨ same ω) (by
    rintro ⟨t, f, f'⟩ ⟨h1, h2, h3, h4⟩
    by_cases hs : same (t, f, f')
    · exact Or.inr hs
    left
    have hnb := not_before str (tag t (P t)) f f'
    dsimp only at h1 h2 h3 h4 ⊢
    simp only [hsecond, tag_run] at h1 h2 h3 h4 hnb
    obtain ⟨o, e1, w1⟩ := h1
    obtain ⟨o', e2, w2⟩ := h2
    dsimp only at e1 e2 w1 w2
    simp only [same, ne_eq] at hs
    rw [e1] at h3 h4 hs w1 hnb
    rw [e2] at h3 h4 w2
    refine ⟨o, o', e1, e2, h3, w1, w2, ?_⟩
    intro hk
    refine hs ?_
    have h3' : question t o = question t o' := h3
    have hnb' : second (ask x0 (question t)) (P t) f f' (question t o) = f' (question t o) := hnb
    change κ (f' (question t o)) = κ (f (question t o))
    rw [hk, ← h3', hnb'])).trans (pr_or _ _)
  have e : (ε + w) / Fintype.card H = ε / Fintype.card H + w / (Fintype.card H : ℚ) := by ring
  rw [e]
  linarith
end
end Verif.Schnorr
