import Verif.Props.SDHCount
import Verif.Props.PSMore
/-!
# Who can make PS signatures (C209, C210)

The signer of the game is the model of the code: `keygen` makes the key, `Signature::new` and `BlindSignature::new` answer the orders.
A forger sees public keys (`see` says which part of them) and the answers to its orders, one after the other, and finally outputs a
signature and messages.  It wins if `Signature::verify` accepts them and the messages are none that were signed for it.
-/
set_option linter.unusedSectionVars false
set_option linter.unusedVariables false
set_option linter.unusedSimpArgs false
namespace Verif.PS.Forgery
open Verif Verif.PoK Verif.PS Verif.Forking

/-! ## The game -/

/-- what a holder asks the signer for: a signature on messages, or a blind signature on a commitment and known messages.  With a
commitment the forger names what it contains (the blinding factor and the hidden messages); the signer does not see that. -/
inductive Order (F S : Type) where
  | direct (messages : List F)
  | blind (commitment : S) (known : List F) (blinding : F) (hidden : List F)

/-- a forger who sees `K` of the public keys: what it orders next and what it finally outputs, from `K` and the answers so far (errors
are answers too) -/
structure Forger (K F S : Type) where
  ask : K → List (Res Error (Signature S)) → Order F S
  out : K → List (Res Error (Signature S)) → Signature S × List F

section
variable {F S O GT : Type} [Field F] [AddCommGroup S] [Module F S] [AddCommGroup O] [Module F O]
  [AddCommGroup GT] [Module F GT] [DecidableEq F] [DecidableEq S] [DecidableEq O] [DecidableEq GT]
variable (P : Params F S O GT)

/-- signature.rs:20-31 `Signature::new` and blind_signature.rs:58-75 `BlindSignature::new` -/
def answer (sk : Sigkey F) (u : F) : Order F S → Res Error (Signature S)
  | .direct messages => sigNew P messages sk u
  | .blind commitment known _ _ => blindNew P commitment known sk (blindingKey P sk) u

/-- the answers to the first `n` orders; `u i` is the random number of order `i` -/
def session {K : Type} (A : Forger K F S) (k : K) (sk : Sigkey F) (u : Nat → F) : Nat → List (Res Error (Signature S))
  | 0 => []
  | n + 1 => session A k sk u n ++ [answer P sk (u n) (A.ask k (session A k sk u n))]

/-- the messages (of `n`) that the signature is for: hidden ones at the beginning, known ones at the end -/
def signed (n : Nat) (j : Nat) : Order F S → F
  | .direct messages => messages.getD j 0
  | .blind _ known _ hidden => hidden.getD j 0 + (List.replicate (n - known.length) 0 ++ known).getD j 0

/-- the forger knows what is in its commitments -/
def Opens (Y : List S) : Order F S → Prop
  | .direct _ => True
  | .blind commitment _ blinding hidden => commitment = blinding • P.g + msm Y hidden

/-- the coins of the game: the secret key and the random numbers of the orders -/
abbrev Coins (F : Type) (n q : Nat) : Type := F × (Fin n → F) × (Fin q → F)

/-- The forger wins against a fresh key for `n` messages: its output verifies, and its messages are none that were signed. -/
def Wins {K : Type} (see : Verkey O → BlindingKey S → K) (n q : Nat) (A : Forger K F S) (ω : Coins F n q) : Prop :=
  let keys := keygen P ω.1 (List.ofFn ω.2.1)
  let k := see keys.1 (blindingKey P keys.2)
  let hist := session P A k keys.2 (SDH.ext ω.2.2)
  let o := A.out k (hist q)
  o.1.verify P o.2 keys.1 = .ok true ∧
    ∀ i < q, ∀ σ, answer P keys.2 (SDH.ext ω.2.2 i) (A.ask k (hist i)) = .ok σ →
      ¬ ∀ j < n, o.2[j]? = some (signed n j (A.ask k (hist i)))

/-- The same with the equation of signatures instead of `Signature::verify`, which refuses `σ₂ = 0`. -/
def WinsEq {K : Type} (see : Verkey O → BlindingKey S → K) (n q : Nat) (A : Forger K F S) (ω : Coins F n q) : Prop :=
  let keys := keygen P ω.1 (List.ofFn ω.2.1)
  let k := see keys.1 (blindingKey P keys.2)
  let hist := session P A k keys.2 (SDH.ext ω.2.2)
  let o := A.out k (hist q)
  Valid ω.1 (List.ofFn ω.2.1) o.1 o.2 ∧
    ∀ i < q, ∀ σ, answer P keys.2 (SDH.ext ω.2.2 i) (A.ask k (hist i)) = .ok σ →
      ¬ ∀ j < n, o.2[j]? = some (signed n j (A.ask k (hist i)))

theorem wins_eq (hnd : Nondeg P) {K : Type} (see : Verkey O → BlindingKey S → K) {n q : Nat} (A : Forger K F S) (ω : Coins F n q)
    (h : Wins P see n q A ω) : WinsEq P see n q A ω :=
  ⟨((ps_verify_iff P hnd _ _ _ _).1 h.1).1, h.2⟩

/-! ## Everything that is published: forging is easy (C209) -/

/-- signs any messages with what `BlindingKey` contains: `u g` and `u (X + ∑ m_i Y_i)` -/
def forge (bk : BlindingKey S) (ms : List F) (u : F) : Signature S := ⟨u • P.g, u • (bk.X + msm bk.Y ms)⟩

/-- **C209** (against the property) What anybody computes from the blinding key is what the signer answers with the signing key, for all
messages. -/
theorem blinding_key_signs (sk : Sigkey F) (ms : List F) (u : F) (hl : ms.length = sk.y.length) :
    sigNew P ms sk u = .ok (forge P (blindingKey P sk) ms u) := by
  unfold sigNew signWith forge blindingKey
  rw [if_neg (by omega), if_neg (by omega)]
  dsimp only
  rw [Res.ok_bind, Res.pure_eq, List.drop_zero, expLoop_eq, msm_smul, ← add_smul, smul_comm]

/-- a forger without orders -/
def outsider (ms : List F) (u : F) : Forger (Verkey O × BlindingKey S) F S where
  ask := fun _ _ => .direct []
  out := fun k _ => (forge P k.2 ms u, ms)

/-- **C209** (against the property) For all messages, a forger that asks for nothing wins, unless the signer itself cannot sign them. -/
theorem outsider_wins (hnd : Nondeg P) (hg : P.g ≠ 0) (n : Nat) (ms : List F) (hl : ms.length = n) (u : F) (hu : u ≠ 0) (ω : Coins F n 0)
    (hx : ω.1 + dot (List.ofFn ω.2.1) ms ≠ 0) : Wins P Prod.mk n 0 (outsider P ms u) ω := by
  refine ⟨?_, fun i hi => absurd hi (by omega)⟩
  have h := blinding_key_signs P ⟨ω.1, List.ofFn ω.2.1⟩ ms u (by dsimp only; rw [List.length_ofFn, hl])
  have hv := ps_sign_verify P hnd ms ω.1 (List.ofFn ω.2.1) u (by rw [List.length_ofFn, hl]) hg hu hx
  obtain ⟨σ, h1, h2⟩ := hv
  have h1 := h.symm.trans h1
  rw [← Res.ok.inj h1] at h2
  exact h2

/-! ## Without `X` of the blinding key: forging solves the problem with one message (C210) -/

/-- what is given in the problem with one message: `x g̃`, `y g̃` and `y g` -/
structure Given (S O : Type) where
  X : O
  Yo : O
  Y : S

/-- a solver of the problem: which number it asks for next (or that it asks for nothing), and what it finally outputs -/
structure Solver (F S O : Type) where
  ask : Given S O → List (Option (S × S)) → Option F
  out : Given S O → List (Option (S × S)) → F × S × S

/-- the oracle: `(h, (x + m y) h)` for `h = u g` -/
def oracle (g : S) (x y : F) (u : Nat → F) (i : Nat) (m : F) : S × S := (u i • g, (x + m * y) • u i • g)

/-- the answers to the first `n` questions -/
def hist (B : Solver F S O) (k : Given S O) (or : Nat → F → S × S) : Nat → List (Option (S × S))
  | 0 => []
  | n + 1 => hist B k or n ++ [(B.ask k (hist B k or n)).map (or n)]

/-- The solver wins: it outputs `m` and `(h, (x + m y) h)` with `h ≠ 0` for an `m` it has not asked for. -/
def Solves (q : Nat) (B : Solver F S O) (x y : F) (u : Fin q → F) : Prop :=
  let k : Given S O := ⟨x • P.gt, y • P.gt, y • P.g⟩
  let h := hist B k (oracle P.g x y (SDH.ext u))
  let o := B.out k (h q)
  o.2.1 ≠ 0 ∧ o.2.2 = (x + o.1 * y) • o.2.1 ∧ ∀ i < q, B.ask k (h i) ≠ some o.1

variable {n q : Nat}

/-- the public key the reduction makes: `Y_j = a_j Y + b_j g` in both groups -/
def keyOf (k : Given S O) (a b : Fin n → F) : Verkey O × List S :=
  (⟨k.X, List.ofFn fun j => a j • k.Yo + b j • P.gt⟩, List.ofFn fun j => a j • k.Y + b j • P.g)

/-- what the signer answers, up to the signature -/
def probe (n : Nat) (o : Order F S) : Res Error (Signature S) := answer P ⟨0, List.replicate n 0⟩ 0 o

/-- the number the signer's answer contains in addition -/
def blindingOf : Order F S → F
  | .direct _ => 0
  | .blind _ _ blinding _ => blinding

/-- the forger's view from the answers of the oracle -/
def view (n : Nat) (b : Fin n → F) (A : Forger (Verkey O × List S) F S) (pk : Verkey O × List S) :
    List (Option (S × S)) → List (Res Error (Signature S)) :=
  List.foldl (fun h a => h ++ [probe P n (A.ask pk h) >>= fun _ => match a with
    | some σ => Res.ok ⟨σ.1, σ.2 + (∑ j : Fin n, b j * signed n j (A.ask pk h) + blindingOf (A.ask pk h)) • σ.1⟩
    | none => .panic]) []

/-- the reduction -/
def solver (n : Nat) (A : Forger (Verkey O × List S) F S) (a b : Fin n → F) : Solver F S O where
  ask := fun k l => match probe P n (A.ask (keyOf P k a b) (view P n b A (keyOf P k a b) l)) with
    | .ok _ => some (∑ j : Fin n, a j * signed n j (A.ask (keyOf P k a b) (view P n b A (keyOf P k a b) l)))
    | _ => none
  out := fun k l =>
    let o := A.out (keyOf P k a b) (view P n b A (keyOf P k a b) l)
    (∑ j : Fin n, a j * o.2.getD j 0, o.1.s1, o.1.s2 - (∑ j : Fin n, b j * o.2.getD j 0) • o.1.s1)

theorem solver_ask (A : Forger (Verkey O × List S) F S) (a b : Fin n → F) (k : Given S O) (pk : Verkey O × List S) (hk : keyOf P k a b = pk)
    (l : List (Option (S × S))) (v : List (Res Error (Signature S))) (hv : view P n b A pk l = v) :
    (solver P n A a b).ask k l = match probe P n (A.ask pk v) with
    | .ok _ => some (∑ j : Fin n, a j * signed n j (A.ask pk v))
    | _ => none := by
  rw [← hv, ← hk]
  rfl

theorem solver_out (A : Forger (Verkey O × List S) F S) (a b : Fin n → F) (k : Given S O) (pk : Verkey O × List S) (hk : keyOf P k a b = pk)
    (l : List (Option (S × S))) (v : List (Res Error (Signature S))) (hv : view P n b A pk l = v) :
    (solver P n A a b).out k l = (∑ j : Fin n, a j * (A.out pk v).2.getD j 0, (A.out pk v).1.s1,
      (A.out pk v).1.s2 - (∑ j : Fin n, b j * (A.out pk v).2.getD j 0) • (A.out pk v).1.s1) := by
  rw [← hv, ← hk]
  rfl

theorem dot_ofFn : ∀ (n : Nat) (ys : Fin n → F) (ms : List F), dot (List.ofFn ys) ms = ∑ j : Fin n, ys j * ms.getD j 0
  | 0, ys, ms => by simp
  | n + 1, ys, [] => by
    rw [dot_nil_right]
    symm
    refine Finset.sum_eq_zero fun j _ => ?_
    rw [List.getD_nil, mul_zero]
  | n + 1, ys, m :: ms => by
    rw [List.ofFn_succ, dot_cons, dot_ofFn n _ ms, Fin.sum_univ_succ]
    rfl

theorem dot_zeros : ∀ (ys : List F) (a : Nat), dot ys (List.replicate a 0) = 0
  | [], a => by simp
  | y :: ys, 0 => by simp
  | y :: ys, a + 1 => by rw [List.replicate_succ, dot_cons, dot_zeros ys a, mul_zero, add_zero]

theorem dot_drop (ys ks : List F) (a : Nat) (h : a ≤ ys.length) : dot (ys.drop a) ks = dot ys (List.replicate a 0 ++ ks) := by
  conv_rhs => rw [← List.take_append_drop a ys]
  rw [dot_append _ _ _ _ (by rw [List.length_take, List.length_replicate]; omega), dot_zeros, zero_add]

/-- Every answer is the same up to the signature, and the signature is for the signed messages. -/
theorem answer_eq (x u : F) (ys : Fin n → F) (o : Order F S) (ho : Opens P (List.ofFn fun j => ys j • P.g) o) :
    answer P ⟨x, List.ofFn ys⟩ u o = probe P n o >>= fun _ =>
      .ok ⟨u • P.g, (x + (∑ j : Fin n, ys j * signed n j o) + blindingOf o) • u • P.g⟩ := by
  cases o with
  | direct ms =>
    unfold probe answer
    dsimp only
    unfold sigNew signWith
    rw [List.length_ofFn, List.length_replicate]
    by_cases hl : ms.length = n
    · rw [if_neg (by omega), if_neg (by omega), if_neg (by omega), if_neg (by omega)]
      rw [Res.ok_bind, Res.ok_bind]
      dsimp only
      rw [Res.pure_eq, Res.pure_eq, Res.ok_bind, List.drop_zero, expLoop_eq, dot_ofFn]
      dsimp only [signed, blindingOf]
      rw [add_zero]
    · rw [if_pos hl, if_pos hl]
      rfl
  | blind c ks b hs =>
    unfold probe answer
    dsimp only
    unfold blindNew checkBlinding blindingKey signWith
    dsimp only
    rw [List.length_map, List.length_map, List.length_ofFn, List.length_replicate]
    by_cases hl : ks.length ≥ n
    · rw [if_pos hl]
      rfl
    · rw [if_neg hl, Res.ok_bind, Res.ok_bind, if_neg (by omega), if_neg (by omega), Res.ok_bind, Res.ok_bind]
      dsimp only
      rw [Res.pure_eq, Res.pure_eq, Res.ok_bind, expLoop_eq, dot_drop _ _ _ (by rw [List.length_ofFn]; omega), dot_ofFn]
      have hc : c = b • P.g + msm (List.ofFn fun j => ys j • P.g) hs := ho
      have hm : (List.ofFn fun j => ys j • P.g) = (List.ofFn ys).map (fun y => y • P.g) := by rw [List.map_ofFn]; rfl
      rw [hm, msm_smul, dot_ofFn] at hc
      rw [hc]
      dsimp only [signed, blindingOf]
      simp only [mul_add, Finset.sum_add_distrib]
      congr 2
      module

theorem view_snoc (b : Fin n → F) (A : Forger (Verkey O × List S) F S) (pk : Verkey O × List S) (l : List (Option (S × S))) (a : Option (S × S)) :
    view P n b A pk (l ++ [a]) = view P n b A pk l ++ [probe P n (A.ask pk (view P n b A pk l)) >>= fun _ => match a with
    | some σ => Res.ok ⟨σ.1, σ.2 + (∑ j : Fin n, b j * signed n j (A.ask pk (view P n b A pk l)) + blindingOf (A.ask pk (view P n b A pk l))) • σ.1⟩
    | none => .panic] := by
  unfold view
  rw [List.foldl_append]
  rfl

/-- what the forger sees: the verification key and the `Y` of the blinding key -/
def seeY (vk : Verkey O) (bk : BlindingKey S) : Verkey O × List S := (vk, bk.Y)

/-- the forger sees with the reduction what it sees in the session -/
theorem view_session (A : Forger (Verkey O × List S) F S) (x y : F) (a b : Fin n → F) (u : Nat → F) (k : Given S O)
    (pk : Verkey O × List S) (hk : keyOf P k a b = pk) (hY : pk.2 = List.ofFn fun j => (y * a j + b j) • P.g)
    (hA : ∀ pk l, Opens P pk.2 (A.ask pk l)) : ∀ m,
    view P n b A pk (hist (solver P n A a b) k (oracle P.g x y u) m) = session P A pk ⟨x, List.ofFn fun j => y * a j + b j⟩ u m
  | 0 => rfl
  | m + 1 => by
    have ih := view_session A x y a b u k pk hk hY hA m
    have ho := hA pk (session P A pk ⟨x, List.ofFn fun j => y * a j + b j⟩ u m)
    rw [hY] at ho
    unfold hist session
    rw [view_snoc, ih, answer_eq P x (u m) (fun j => y * a j + b j) _ ho]
    congr 2
    cases hp : probe P n (A.ask pk (session P A pk ⟨x, List.ofFn fun j => y * a j + b j⟩ u m)) with
    | err e' => rfl
    | panic => rfl
    | ok σ =>
      rw [Res.ok_bind, Res.ok_bind, solver_ask P A a b k pk hk _ _ ih, hp]
      dsimp only [Option.map_some, oracle]
      congr 2
      rw [← add_smul]
      congr 1
      simp only [add_mul, Finset.sum_add_distrib]
      rw [Finset.sum_mul]
      have : ∑ i : Fin n, y * a i * signed n i (A.ask pk (session P A pk ⟨x, List.ofFn fun j => y * a j + b j⟩ u m)) =
          ∑ i : Fin n, a i * signed n i (A.ask pk (session P A pk ⟨x, List.ofFn fun j => y * a j + b j⟩ u m)) * y :=
        Finset.sum_congr rfl fun i _ => by ring
      rw [this]
      ring

/-- the messages of the forgery and of order `i` have the same `∑ a_j m_j` -/
def Clash (A : Forger (Verkey O × List S) F S) (ω : Coins F n q) (i : Nat) (a : Fin n → F) : Prop :=
  let keys := keygen P ω.1 (List.ofFn ω.2.1)
  let k := seeY keys.1 (blindingKey P keys.2)
  let h := session P A k keys.2 (SDH.ext ω.2.2)
  let o := A.out k (h q)
  (∃ σ, answer P keys.2 (SDH.ext ω.2.2 i) (A.ask k (h i)) = .ok σ) ∧ ∑ j : Fin n, a j * (o.2.getD j 0 - signed n j (A.ask k (h i))) = 0

theorem solves (hnd : Nondeg P) (A : Forger (Verkey O × List S) F S) (hA : ∀ pk l, Opens P pk.2 (A.ask pk l)) (x y : F) (a b : Fin n → F)
    (u : Fin q → F) (hw : WinsEq P seeY n q A (x, (fun j => y * a j + b j), u))
    (hc : ∀ i < q, ¬ Clash P A (x, (fun j => y * a j + b j), u) i a) : Solves P q (solver P n A a b) x y u := by
  obtain ⟨hver, hnew⟩ := hw
  have hk : keyOf P (⟨x • P.gt, y • P.gt, y • P.g⟩ : Given S O) a b =
      seeY (keygen P x (List.ofFn fun j => y * a j + b j)).1 (blindingKey P (keygen P x (List.ofFn fun j => y * a j + b j)).2) := by
    unfold keyOf seeY keygen blindingKey
    dsimp only
    rw [List.map_ofFn, List.map_ofFn]
    congr 2
    · congr 1
      funext j
      dsimp only [Function.comp]
      rw [add_smul, mul_comm, mul_smul]
    · funext j
      dsimp only [Function.comp]
      rw [add_smul, mul_comm, mul_smul]
  have hY : (seeY (keygen P x (List.ofFn fun j => y * a j + b j)).1 (blindingKey P (keygen P x (List.ofFn fun j => y * a j + b j)).2)).2 =
      List.ofFn fun j => (y * a j + b j) • P.g := by
    unfold seeY keygen blindingKey
    dsimp only
    rw [List.map_ofFn]
    rfl
  unfold Clash at hc
  dsimp only at hver hnew hc
  generalize hpk : seeY (keygen P x (List.ofFn fun j => y * a j + b j)).1 (blindingKey P (keygen P x (List.ofFn fun j => y * a j + b j)).2) = pk at *
  have hv := view_session P A x y a b (SDH.ext u) _ pk hk hY hA
  have hsk : (keygen P x (List.ofFn fun j => y * a j + b j)).2 = ⟨x, List.ofFn fun j => y * a j + b j⟩ := rfl
  rw [hsk] at hnew hc
  rw [hsk] at hver
  unfold Solves
  dsimp only
  rw [solver_out P A a b _ pk hk _ _ (hv q)]
  dsimp only
  generalize hh : session P A pk ⟨x, List.ofFn fun j => y * a j + b j⟩ (SDH.ext u) = h at *
  obtain ⟨hlen, hs1, hs2⟩ := hver
  refine ⟨hs1, ?_, ?_⟩
  · rw [hs2, dot_ofFn, ← sub_smul]
    congr 1
    simp only [add_mul, Finset.sum_add_distrib]
    rw [Finset.sum_mul]
    have : ∑ i : Fin n, y * a i * (A.out pk (h q)).2.getD i 0 = ∑ i : Fin n, a i * (A.out pk (h q)).2.getD i 0 * y :=
      Finset.sum_congr rfl fun i _ => by ring
    rw [this]
    ring
  · intro i hi heq
    rw [solver_ask P A a b _ pk hk _ _ (hv i)] at heq
    have ho := hA pk (h i)
    rw [hY] at ho
    have hans := answer_eq P x (SDH.ext u i) (fun j => y * a j + b j) (A.ask pk (h i)) ho
    cases hp : probe P n (A.ask pk (h i)) with
    | err e' => rw [hp] at heq; exact absurd heq (by simp)
    | panic => rw [hp] at heq; exact absurd heq (by simp)
    | ok σ =>
      rw [hp] at heq hans
      rw [Res.ok_bind] at hans
      refine hc i hi ⟨⟨_, hans⟩, ?_⟩
      simp only [mul_sub, Finset.sum_sub_distrib]
      rw [← Option.some.inj heq, sub_self]

section prob
variable [Fintype F]

/-- a nonzero vector and a random one are orthogonal with probability at most one in `|F|` -/
theorem pr_orthogonal (δ : Fin n → F) (h : δ ≠ 0) : pr (fun a : Fin n → F => ∑ j, a j * δ j = 0) ≤ 1 / Fintype.card F := by
  obtain ⟨j0, hj0⟩ := Function.ne_iff.1 h
  have hj0 : δ j0 ≠ 0 := hj0
  refine SDH.pr_line _ (fun γ v => Function.update γ j0 v) ?_
  intro a b ha hb v v' h
  have hoff : ∀ j, j ≠ j0 → a j = b j := by
    intro j hj
    have := congrFun h j
    rwa [Function.update_of_ne hj, Function.update_of_ne hj] at this
  have hsum : ∑ j, (a j - b j) * δ j = (a j0 - b j0) * δ j0 :=
    Finset.sum_eq_single j0 (fun j _ hj => by rw [hoff j hj, sub_self, zero_mul]) (fun h => absurd (Finset.mem_univ _) h)
  have hz : (a j0 - b j0) * δ j0 = 0 := by
    rw [← hsum]
    simp only [sub_mul, Finset.sum_sub_distrib]
    rw [ha, hb, sub_self]
  have h00 : a j0 = b j0 := sub_eq_zero.1 ((mul_eq_zero.1 hz).resolve_right hj0)
  refine ⟨funext fun j => ?_, ?_⟩
  · by_cases hj : j = j0
    · rw [hj, h00]
    · exact hoff j hj
  · have := congrFun h j0
    rwa [Function.update_self, Function.update_self] at this

theorem pr_clash (hnd : Nondeg P) (A : Forger (Verkey O × List S) F S) (ω : Coins F n q) (hw : WinsEq P seeY n q A ω) (i : Nat) (hi : i < q) :
    pr (fun a : Fin n → F => Clash P A ω i a) ≤ 1 / Fintype.card F := by
  obtain ⟨hver, hnew⟩ := hw
  have hlen := hver.1
  rw [List.length_ofFn] at hlen
  unfold Clash
  dsimp only at hnew ⊢
  by_cases hex : ∃ σ, answer P (keygen P ω.1 (List.ofFn ω.2.1)).2 (SDH.ext ω.2.2 i)
      (A.ask (seeY (keygen P ω.1 (List.ofFn ω.2.1)).1 (blindingKey P (keygen P ω.1 (List.ofFn ω.2.1)).2))
        (session P A (seeY (keygen P ω.1 (List.ofFn ω.2.1)).1 (blindingKey P (keygen P ω.1 (List.ofFn ω.2.1)).2)) (keygen P ω.1 (List.ofFn ω.2.1)).2
          (SDH.ext ω.2.2) i)) = .ok σ
  · refine (pr_mono fun a ha => ha.2).trans (pr_orthogonal _ fun hz => ?_)
    obtain ⟨σ, hσ⟩ := hex
    refine hnew i hi σ hσ fun j hj => ?_
    have := congrFun hz ⟨j, hj⟩
    have := sub_eq_zero.1 this
    rw [← this, List.getD_eq_getElem?_getD, List.getElem?_eq_getElem (by omega)]
    rfl
  · rw [pr_false _ fun a ha => hex ha.1]
    positivity

/-- the coins of the reduction: the problem's secrets `x`, `y` and random numbers, and the reduction's `a`, `b` -/
abbrev Coins1 (F : Type) (n q : Nat) : Type := F × F × (Fin n → F) × (Fin n → F) × (Fin q → F)

/-- the same for `WinsEq` -/
theorem unforgeable_eq (hnd : Nondeg P) (n q : Nat) (A : Forger (Verkey O × List S) F S) (hA : ∀ pk l, Opens P pk.2 (A.ask pk l)) :
    pr (WinsEq P seeY n q A) ≤ pr (fun κ : Coins1 F n q => Solves P q (solver P n A κ.2.2.1 κ.2.2.2.1) κ.1 κ.2.1 κ.2.2.2.2) +
      q / Fintype.card F := by
  have hF : (0 : ℚ) < Fintype.card F := by exact_mod_cast Fintype.card_pos
  let C : Coins F n q → F × (Fin n → F) → Prop := fun ω p => WinsEq P seeY n q A ω ∧ ∃ i : Fin q, Clash P A ω i p.2
  have h0 : pr (WinsEq P seeY n q A) = pr (fun p : Coins F n q × F × (Fin n → F) => WinsEq P seeY n q A p.1) := (pr_fst _).symm
  have h1 : pr (fun p : Coins F n q × F × (Fin n → F) => WinsEq P seeY n q A p.1) ≤
      pr (fun p : Coins F n q × F × (Fin n → F) => WinsEq P seeY n q A p.1 ∧ ¬ C p.1 p.2) + pr (fun p : Coins F n q × F × (Fin n → F) => C p.1 p.2) := by
    refine le_trans (pr_mono fun p hp => ?_) (pr_or _ _)
    by_cases hb : C p.1 p.2
    · exact Or.inr hb
    · exact Or.inl ⟨hp, hb⟩
  have h2 : pr (fun p : Coins F n q × F × (Fin n → F) => C p.1 p.2) ≤ q * (1 / Fintype.card F) := by
    refine pr_fiber _ _ (by positivity) fun ω => pr_fiber _ _ (by positivity) fun y => ?_
    by_cases hw : WinsEq P seeY n q A ω
    · refine (pr_mono (Q := fun a : Fin n → F => ∃ i : Fin q, Clash P A ω i a) fun a ha => ha.2).trans ?_
      exact SDH.pr_exists_fin _ _ fun i => pr_clash P hnd A ω hw i i.2
    · rw [pr_false (fun a : Fin n → F => C ω (y, a)) fun a ha => hw ha.1]
      positivity
  have h3 := pr_embed (fun p : Coins F n q × F × (Fin n → F) => WinsEq P seeY n q A p.1 ∧ ¬ C p.1 p.2)
    (fun κ : Coins1 F n q => Solves P q (solver P n A κ.2.2.1 κ.2.2.2.1) κ.1 κ.2.1 κ.2.2.2.2)
    (fun p => (p.1.1, p.2.1, p.2.2, (fun j => p.1.2.1 j - p.2.1 * p.2.2 j), p.1.2.2)) (by
      rintro ⟨⟨x, ys, u⟩, y, a⟩ _ ⟨⟨x', ys', u'⟩, y', a'⟩ _ hab
      simp only [Prod.mk.injEq] at hab
      obtain ⟨rfl, rfl, rfl, hb, rfl⟩ := hab
      have : ys = ys' := funext fun j => sub_left_injective (congrFun hb j)
      rw [this]) (by
      rintro ⟨⟨x, ys, u⟩, y, a⟩ ⟨hw, hc⟩
      dsimp only at hw hc ⊢
      have hys : ys = fun j => y * a j + (ys j - y * a j) := funext fun j => by ring
      refine solves P hnd A hA x y a _ u ?_ fun i hi hcl => hc ⟨hw, ⟨i, hi⟩, ?_⟩
      · rw [← hys]; exact hw
      · rw [← hys] at hcl; exact hcl)
  have hcard : Fintype.card (Coins F n q × F × (Fin n → F)) = Fintype.card (Coins1 F n q) := by
    simp only [Coins, Coins1, Fintype.card_prod, Fintype.card_pi, Finset.prod_const, Finset.card_univ, Fintype.card_fin]
    ring
  rw [hcard] at h3
  have hpos : (0 : ℚ) < Fintype.card (Coins1 F n q) := by exact_mod_cast Fintype.card_pos
  have h4 := le_of_mul_le_mul_right h3 hpos
  rw [h0]
  have hdiv : (q : ℚ) / Fintype.card F = q * (1 / Fintype.card F) := by ring
  rw [hdiv]
  linarith

/-- **C210** A forger that sees the verification key and the `Y` of the blinding key, and that knows what is in its commitments, solves the
problem with one message: if it wins with probability `ε` after `q` orders, then `solver`, which runs it with keys and answers made from
`x g̃`, `y g̃`, `y g` and the answers of the oracle only, outputs `(h, (x + m y) h)` for an `m` it did not ask for with probability at
least `ε - q / |F|`. -/
theorem ps_unforgeable (hnd : Nondeg P) (n q : Nat) (A : Forger (Verkey O × List S) F S) (hA : ∀ pk l, Opens P pk.2 (A.ask pk l)) :
    pr (Wins P seeY n q A) ≤ pr (fun κ : Coins1 F n q => Solves P q (solver P n A κ.2.2.1 κ.2.2.2.1) κ.1 κ.2.1 κ.2.2.2.2) +
      q / Fintype.card F :=
  (pr_mono fun ω h => wins_eq P hnd seeY A ω h).trans (unforgeable_eq P hnd n q A hA)

/-- **C209** (against the property) The forger without orders wins with probability at least `1 - 1 / |F|`. -/
theorem outsider_probability (hnd : Nondeg P) (hg : P.g ≠ 0) (ms : List F) (u : F) (hu : u ≠ 0) :
    1 - 1 / (Fintype.card F : ℚ) ≤ pr (Wins P Prod.mk ms.length 0 (outsider P ms u)) := by
  have h1 := pr_not_ge (fun ω : Coins F ms.length 0 => ω.1 + dot (List.ofFn ω.2.1) ms = 0)
  have h2 : pr (fun ω : Coins F ms.length 0 => ω.1 + dot (List.ofFn ω.2.1) ms = 0) ≤ 1 / Fintype.card F := by
    refine SDH.pr_line _ (fun ω v => (v, ω.2)) ?_
    rintro ⟨x, r⟩ ⟨x', r'⟩ ha hb v v' hab
    dsimp only at ha hb hab
    obtain ⟨rfl, rfl⟩ := Prod.mk.inj hab
    rw [eq_neg_of_add_eq_zero_left ha, eq_neg_of_add_eq_zero_left hb]
    exact ⟨rfl, rfl⟩
  have h3 : pr (fun ω : Coins F ms.length 0 => ¬ ω.1 + dot (List.ofFn ω.2.1) ms = 0) ≤ pr (Wins P Prod.mk ms.length 0 (outsider P ms u)) :=
    pr_mono fun ω hω => outsider_wins P hnd hg ms.length ms rfl u hu ω hω
  linarith

end prob
end

/-! ## Forgers that win -/

namespace Met
open Verif.Toy Verif.PS.Toy
local instance : Fact (Nat.Prime 101) := fact101

/-- signing the messages 4, 6, 8 without the key -/
example : (forge par (blindingKey par ⟨7, ys⟩) [4, 6, 8] 5).verify par [4, 6, 8] vk = .ok true :=
  (outsider_wins par nondeg (by decide) 3 [4, 6, 8] rfl 5 (by decide) (7, ![3, 5, 11], Fin.elim0) (by decide +kernel)).1

example : 1 / 2 < pr (Wins par Prod.mk 3 0 (outsider par [4, 6, 8] 5)) := by
  have h := outsider_probability par nondeg (by decide) [4, 6, 8] 5 (by decide)
  rw [ZMod.card] at h
  norm_num at h ⊢
  exact lt_of_lt_of_le (by norm_num) h

/-- orders a blind signature on the hidden message 5 and the known message 6, and signs the messages 1, 1 itself with the secret key, which
in this group it can read off the verification key -/
def insider : Forger (Verkey K × List K) K K where
  ask := fun pk _ => .blind ((4 : K) • par.g + msm pk.2 [(5 : K)]) [6] 4 [5]
  out := fun pk _ => (⟨2, (pk.1.X + msm pk.1.Y [(1 : K), 1]) * 3⁻¹ * 2⟩, [1, 1])

theorem opens (pk : Verkey K × List K) (l : List (Res Error (Signature K))) : Opens par pk.2 (insider.ask pk l) := by
  change (4 : K) • par.g + msm pk.2 [(5 : K)] = (4 : K) • par.g + msm pk.2 [(5 : K)]
  rfl

/-- the order is answered with a signature -/
example : ∃ σ, answer par ⟨7, [3, 5]⟩ 9 (insider.ask (⟨21, [9, 15]⟩, [6, 10]) []) = .ok σ := ⟨_, rfl⟩

theorem insider_wins (ω : Coins K 2 1) (h : ω.1 + dot (List.ofFn ω.2.1) [1, 1] ≠ 0) : Wins par seeY 2 1 insider ω := by
  constructor
  · rw [ps_verify_iff par nondeg]
    have hs : (keygen par ω.1 (List.ofFn ω.2.1)).1.X + msm (keygen par ω.1 (List.ofFn ω.2.1)).1.Y [(1 : K), 1] =
        (ω.1 + dot (List.ofFn ω.2.1) [1, 1]) * 3 := by
      unfold keygen
      dsimp only
      rw [msm_smul, ← add_smul]
      rfl
    refine ⟨⟨?_, (by decide : (2 : K) ≠ 0), ?_⟩, ?_⟩
    · rw [List.length_ofFn]; rfl
    · change ((keygen par ω.1 (List.ofFn ω.2.1)).1.X + msm (keygen par ω.1 (List.ofFn ω.2.1)).1.Y [(1 : K), 1]) * 3⁻¹ * 2 =
        (ω.1 + dot (List.ofFn ω.2.1) [1, 1]) * 2
      rw [hs, mul_assoc _ (3 : K) 3⁻¹, mul_inv_cancel₀ (by decide), mul_one]
    · change ((keygen par ω.1 (List.ofFn ω.2.1)).1.X + msm (keygen par ω.1 (List.ofFn ω.2.1)).1.Y [(1 : K), 1]) * 3⁻¹ * 2 ≠ 0
      rw [hs, mul_assoc _ (3 : K) 3⁻¹, mul_inv_cancel₀ (by decide), mul_one]
      exact mul_ne_zero h (by decide)
  · intro i hi σ hσ hall
    have := hall 0 (by omega)
    change some (1 : K) = some (5 + 0) at this
    exact absurd this (by decide +kernel)

/-- With this forger the reduction solves the problem with probability more than a half. -/
theorem reduction_succeeds :
    1 / 2 < pr (fun κ : Coins1 K 2 1 => Solves par 1 (solver par 2 insider κ.2.2.1 κ.2.2.2.1) κ.1 κ.2.1 κ.2.2.2.2) := by
  have h := ps_unforgeable par nondeg 2 1 insider opens
  have h1 := pr_not_ge (fun ω : Coins K 2 1 => ω.1 + dot (List.ofFn ω.2.1) [1, 1] = 0)
  have h2 : pr (fun ω : Coins K 2 1 => ω.1 + dot (List.ofFn ω.2.1) [1, 1] = 0) ≤ 1 / Fintype.card K := by
    refine SDH.pr_line _ (fun ω v => (v, ω.2)) ?_
    rintro ⟨x, r⟩ ⟨x', r'⟩ ha hb v v' hab
    dsimp only at ha hb hab
    obtain ⟨rfl, rfl⟩ := Prod.mk.inj hab
    rw [eq_neg_of_add_eq_zero_left ha, eq_neg_of_add_eq_zero_left hb]
    exact ⟨rfl, rfl⟩
  have h3 : pr (fun ω : Coins K 2 1 => ¬ ω.1 + dot (List.ofFn ω.2.1) [1, 1] = 0) ≤ pr (Wins par seeY 2 1 insider) :=
    pr_mono fun ω hω => insider_wins ω hω
  rw [ZMod.card] at h h2
  norm_num only at h h2
  linarith

end Met
end Verif.PS.Forgery
