import Verif.Props.SymmForgery
import Mathlib.Algebra.Order.BigOperators.Group.Finset
import Mathlib.Logic.Equiv.Fin.Basic
import Mathlib.Algebra.BigOperators.Fin
import Mathlib.Tactic.FieldSimp
/-!
# C215: ciphertexts of AES-CBC-HMAC hide the messages

Someone chooses pairs of messages of equal length, each pair depending on the ciphertexts seen so far, and is given the encryptions of
all first or of all second components.  AES under a random key is a permutation of the blocks chosen at random, the nonces are drawn at
random (`nonce_gen`).  What they see is the same up to the usual birthday bound.
-/
set_option linter.unusedSectionVars false
set_option linter.unusedVariables false
set_option linter.unusedSimpArgs false
namespace Verif.Symm
open Verif.Forking Verif.Sig

/-! ## The game -/

/-- a block cipher that is a permutation of the blocks chosen at random (the key is the choice) -/
def randomCipher (π : Equiv.Perm (Str 16)) : BlockCipher where
  enc := fun _ b => if h : b.length = 16 then (π ⟨b, h⟩).1 else b
  dec := fun _ b => if h : b.length = 16 then (π.symm ⟨b, h⟩).1 else b
  enc_length := fun _ b h => by rw [dif_pos h]; exact (π ⟨b, h⟩).2
  dec_enc := fun _ b h => by
    have : (π ⟨b, h⟩).1.length = 16 := (π ⟨b, h⟩).2
    rw [dif_pos h, dif_pos this]
    exact congrArg Subtype.val (π.symm_apply_apply ⟨b, h⟩)

/-- associated data and message to be encrypted next, given the ciphertexts so far (latest first) -/
abbrev Sender := List (Res Unit Bytes) → Bytes × Bytes

/-- what is seen: the ciphertexts of `encrypt_easy` for the messages chosen one after the other -/
def observe (C : Cipher) (key : Bytes) (A : Sender) : List (Str 16) → List (Res Unit Bytes) → List (Res Unit Bytes)
  | [], h => h
  | nonce :: ns, h => observe C key A ns (encryptEasy C key nonce.1 (A h).1 (A h).2 :: h)

/-- the number of blocks encrypted for these ciphertexts -/
def Sender.blocks (A : Sender) : List (Res Unit Bytes) → Nat
  | [] => 0
  | _ :: h => ((A h).2.length / 16 + 1) + A.blocks h

/-- the same with steps in which nothing is encrypted, answered by an error -/
abbrev OSender := List (Res Unit Bytes) → Option (Bytes × Bytes)

/-- the answer to one step -/
def stepAnswer (C : Cipher) (key : Bytes) (nonce : Bytes) : Option (Bytes × Bytes) → Res Unit Bytes
  | none => .err ()
  | some (aad, msg) => encryptEasy C key nonce aad msg

/-- what is seen, with such steps -/
def observeO (C : Cipher) (key : Bytes) (A : OSender) : List (Str 16) → List (Res Unit Bytes) → List (Res Unit Bytes)
  | [], h => h
  | nonce :: ns, h => observeO C key A ns (stepAnswer C key nonce.1 (A h) :: h)

/-- the number of blocks of one step -/
def stepBlocks : Option (Bytes × Bytes) → Nat
  | none => 0
  | some (_, msg) => msg.length / 16 + 1

/-- the number of blocks encrypted for these answers -/
def OSender.blocks (A : OSender) : List (Res Unit Bytes) → Nat
  | [] => 0
  | _ :: h => stepBlocks (A h) + A.blocks h

theorem observeO_some (C : Cipher) (key : Bytes) (A : Sender) (ns : List (Str 16)) (h : List (Res Unit Bytes)) :
    observeO C key (fun h => some (A h)) ns h = observe C key A ns h := by
  induction ns generalizing h with
  | nil => rfl
  | cons x ns ih => simp only [observe, observeO, stepAnswer, ih]

theorem blocks_some (A : Sender) (h : List (Res Unit Bytes)) : OSender.blocks (fun h => some (A h)) h = A.blocks h := by
  induction h with
  | nil => rfl
  | cons r h ih => simp only [OSender.blocks, Sender.blocks, stepBlocks, ih]

/-! ## Processes that draw blocks and ask for values of a permutation -/

variable {B : Type}

inductive Proc (B : Type) where
  | out (b : Bool)
  | draw (k : B → Proc B)
  | perm (x : B) (k : B → Proc B)

variable [Fintype B] [DecidableEq B] [Nonempty B]

/-- average over the blocks -/
def avg (v : B → ℚ) : ℚ := (∑ y, v y) / Fintype.card B

/-- probability of `true` when the permutation is `π` -/
def Proc.real (π : Equiv.Perm B) : Proc B → ℚ
  | .out b => if b then 1 else 0
  | .draw k => avg (fun y => (k y).real π)
  | .perm x k => (k (π x)).real π

/-- probability of `true` when every value asked for is drawn afresh -/
def Proc.ideal : Proc B → ℚ
  | .out b => if b then 1 else 0
  | .draw k => avg (fun y => (k y).ideal)
  | .perm _ k => avg (fun y => (k y).ideal)

/-- the same, counting only the cases in which no argument and no value occurs twice (`T`: arguments and values so far) -/
def Proc.good : List (B × B) → Proc B → ℚ
  | _, .out b => if b then 1 else 0
  | T, .draw k => avg (fun y => (k y).good T)
  | T, .perm x k => if x ∈ T.map Prod.fst then 0 else avg (fun y => if y ∈ T.map Prod.snd then 0 else (k y).good ((x, y) :: T))

theorem card_pos' : (0 : ℚ) < Fintype.card B := by exact_mod_cast Fintype.card_pos

theorem avg_mono {v w : B → ℚ} (h : ∀ y, v y ≤ w y) : avg v ≤ avg w :=
  div_le_div_of_nonneg_right (Finset.sum_le_sum fun y _ => h y) card_pos'.le

theorem avg_const (c : ℚ) : avg (fun _ : B => c) = c := by
  unfold avg
  rw [Finset.sum_const, nsmul_eq_mul, Finset.card_univ, mul_comm, mul_div_assoc, div_self card_pos'.ne', mul_one]

theorem avg_unit {v : B → ℚ} (h : ∀ y, 0 ≤ v y ∧ v y ≤ 1) : 0 ≤ avg v ∧ avg v ≤ 1 := by
  have h0 := avg_mono (fun y => (h y).1)
  have h1 := avg_mono (fun y => (h y).2)
  rw [avg_const] at h0 h1
  exact ⟨h0, h1⟩

theorem avg_add (v w : B → ℚ) : avg (fun y => v y + w y) = avg v + avg w := by
  unfold avg
  rw [Finset.sum_add_distrib, add_div]

/-- 1 on the list, 0 elsewhere -/
def ind (l : List B) (y : B) : ℚ := if y ∈ l then 1 else 0

theorem avg_ind (l : List B) (N : ℚ) (hN : N = Fintype.card B) : avg (ind l) ≤ l.length / N := by
  rw [hN]
  unfold avg ind
  refine div_le_div_of_nonneg_right ?_ card_pos'.le
  rw [Finset.sum_boole]
  have : (Finset.univ.filter (fun y => y ∈ l)) ⊆ l.toFinset := by
    intro y hy
    exact List.mem_toFinset.2 (Finset.mem_filter.1 hy).2
  exact_mod_cast (Finset.card_le_card this).trans (List.toFinset_card_le l)

theorem avg_skip (l : List B) (v : B → ℚ) (hv : ∀ y, 0 ≤ v y ∧ v y ≤ 1) (N : ℚ) (hN : N = Fintype.card B) :
    avg v ≤ avg (fun y => if y ∈ l then 0 else v y) + l.length / N := by
  have h : avg v ≤ avg (fun y => (if y ∈ l then 0 else v y) + ind l y) := by
    refine avg_mono fun y => ?_
    unfold ind
    split_ifs
    · rw [zero_add]; exact (hv y).2
    · rw [add_zero]
  rw [avg_add] at h
  exact h.trans (add_le_add_right (avg_ind l N hN) _)

theorem avg_comp (σ : Equiv.Perm B) (v : B → ℚ) : avg (fun y => v (σ y)) = avg v := by
  unfold avg
  rw [Equiv.sum_comp σ v]

theorem ideal_unit (P : Proc B) : 0 ≤ P.ideal ∧ P.ideal ≤ 1 := by
  induction P with
  | out b => cases b <;> simp [Proc.ideal]
  | draw k ih =>
    simp only [Proc.ideal]
    exact avg_unit ih
  | perm x k ih =>
    simp only [Proc.ideal]
    exact avg_unit ih

theorem good_unit (P : Proc B) (T : List (B × B)) : 0 ≤ P.good T ∧ P.good T ≤ 1 := by
  induction P generalizing T with
  | out b => cases b <;> simp [Proc.good]
  | draw k ih =>
    simp only [Proc.good]
    exact avg_unit fun y => ih y T
  | perm x k ih =>
    simp only [Proc.good]
    split_ifs
    · simp
    · refine avg_unit fun y => ?_
      split_ifs
      · exact ⟨le_refl 0, zero_le_one⟩
      · exact ih y _

/-! ## A random permutation looks random as long as nothing occurs twice -/

/-- the permutations with the given values -/
def through (T : List (B × B)) : Finset (Equiv.Perm B) := Finset.univ.filter (fun π => ∀ p ∈ T, π p.1 = p.2)

theorem mem_through {T : List (B × B)} {π : Equiv.Perm B} : π ∈ through T ↔ ∀ p ∈ T, π p.1 = p.2 := by
  unfold through
  rw [Finset.mem_filter]
  exact ⟨fun h => h.2, fun h => ⟨Finset.mem_univ _, h⟩⟩

theorem through_cons_card (T : List (B × B)) (x y y' : B) (hx : x ∉ T.map Prod.fst) (hy : y ∉ T.map Prod.snd) :
    (through ((x, y') :: T)).card ≤ (through ((x, y) :: T)).card := by
  refine Finset.card_le_card_of_injOn (fun π => Equiv.swap y y' * π) ?_ ?_
  · intro π hπ
    have hπ := mem_through.1 (Finset.mem_coe.1 hπ)
    have h0 : π x = y' := hπ (x, y') List.mem_cons_self
    refine Finset.mem_coe.2 (mem_through.2 ?_)
    intro p hp
    rw [Equiv.Perm.mul_apply]
    rcases List.mem_cons.1 hp with rfl | hp
    · rw [h0, Equiv.swap_apply_right]
    · have hpp := hπ p (List.mem_cons_of_mem _ hp)
      rw [hpp]
      apply Equiv.swap_apply_of_ne_of_ne
      · intro e
        exact hy (List.mem_map.2 ⟨p, hp, e⟩)
      · rintro e
        have : π p.1 = π x := by rw [hpp, e, h0]
        exact hx (List.mem_map.2 ⟨p, hp, π.injective this⟩)
  · intro π _ π' _ h
    exact mul_left_cancel h

theorem sum_through (T : List (B × B)) (x : B) (v : Equiv.Perm B → ℚ) :
    ∑ π ∈ through T, v π = ∑ y, ∑ π ∈ through ((x, y) :: T), v π := by
  rw [← Finset.sum_fiberwise (through T) (fun π => π x) v]
  refine Finset.sum_congr rfl fun y _ => ?_
  refine Finset.sum_congr ?_ fun _ _ => rfl
  ext π
  rw [Finset.mem_filter, mem_through, mem_through]
  constructor
  · rintro ⟨h1, h2⟩ p hp
    rcases List.mem_cons.1 hp with rfl | hp
    · exact h2
    · exact h1 p hp
  · intro h
    exact ⟨fun p hp => h p (List.mem_cons_of_mem _ hp), h (x, y) List.mem_cons_self⟩

theorem real_nonneg (π : Equiv.Perm B) (P : Proc B) : 0 ≤ P.real π := by
  induction P with
  | out b => cases b <;> simp [Proc.real]
  | draw k ih => simp only [Proc.real]; rw [← avg_const (B := B) 0]; exact avg_mono ih
  | perm x k ih => exact ih _

theorem good_le_real (P : Proc B) (T : List (B × B)) : P.good T * (through T).card ≤ ∑ π ∈ through T, P.real π := by
  induction P generalizing T with
  | out b =>
    simp only [Proc.good, Proc.real]
    rw [Finset.sum_const, nsmul_eq_mul, mul_comm]
  | draw k ih =>
    simp only [Proc.good, Proc.real, avg]
    rw [div_mul_eq_mul_div, ← Finset.sum_div, Finset.sum_comm, Finset.sum_mul]
    exact div_le_div_of_nonneg_right (Finset.sum_le_sum fun y _ => ih y T) card_pos'.le
  | perm x k ih =>
    simp only [Proc.good]
    split_ifs with hx
    · rw [zero_mul]
      exact Finset.sum_nonneg fun π _ => real_nonneg π _
    · rw [sum_through T x]
      unfold avg
      rw [div_mul_eq_mul_div, Finset.sum_mul, Finset.sum_div]
      refine Finset.sum_le_sum fun y _ => ?_
      by_cases hy : y ∈ T.map Prod.snd
      · rw [if_pos hy, zero_mul, zero_div]
        exact Finset.sum_nonneg fun π _ => real_nonneg π _
      · rw [if_neg hy]
        have h1 := ih y ((x, y) :: T)
        have h2 : ∑ π ∈ through ((x, y) :: T), (Proc.perm x k).real π = ∑ π ∈ through ((x, y) :: T), (k y).real π := by
          refine Finset.sum_congr rfl fun π hπ => ?_
          have : π x = y := mem_through.1 hπ (x, y) List.mem_cons_self
          simp only [Proc.real, this]
        rw [h2]
        refine le_trans ?_ h1
        rw [div_le_iff₀ card_pos', mul_assoc]
        refine mul_le_mul_of_nonneg_left ?_ (good_unit _ _).1
        have h3 : ((through T).card : ℚ) = ∑ y', ((through ((x, y') :: T)).card : ℚ) := by
          have := sum_through T x (fun _ => (1 : ℚ))
          simpa [Finset.sum_const] using this
        rw [h3]
        have h4 : ∑ y' : B, ((through ((x, y') :: T)).card : ℚ) ≤ ∑ _y' : B, ((through ((x, y) :: T)).card : ℚ) :=
          Finset.sum_le_sum fun y' _ => by exact_mod_cast through_cons_card T x y y' hx hy
        rw [Finset.sum_const, nsmul_eq_mul, Finset.card_univ] at h4
        linarith

/-- averaged over all permutations -/
theorem good_le_avg (P : Proc B) : P.good [] ≤ (∑ π : Equiv.Perm B, P.real π) / Fintype.card (Equiv.Perm B) := by
  have h := good_le_real P []
  have e : through ([] : List (B × B)) = Finset.univ := by
    ext π
    rw [mem_through]
    simp
  rw [e, Finset.card_univ] at h
  rw [le_div_iff₀ (by exact_mod_cast Fintype.card_pos)]
  exact h

/-! ## CBC as such a process -/

/-- exclusive or -/
def xorS (a b : Str 16) : Str 16 := ⟨xorB a.1 b.1, xorB_length _ _ a.2 b.2⟩

theorem xorB_comm : ∀ a b : Bytes, xorB a b = xorB b a := by
  intro a b
  unfold xorB
  rw [List.zipWith_comm]
  congr 1
  funext x y
  exact UInt8.xor_comm _ _

/-- masking with a block is a permutation of the blocks -/
def maskP (b : Str 16) : Equiv.Perm (Str 16) where
  toFun a := xorS a b
  invFun a := xorS a b
  left_inv a := by
    apply Subtype.ext
    change xorB (xorB a.1 b.1) b.1 = a.1
    rw [xorB_comm _ b.1, xorB_comm a.1, xorB_cancel _ _ (b.2.trans a.2.symm)]
  right_inv a := by
    apply Subtype.ext
    change xorB (xorB a.1 b.1) b.1 = a.1
    rw [xorB_comm _ b.1, xorB_comm a.1, xorB_cancel _ _ (b.2.trans a.2.symm)]

/-- encrypt the blocks, then go on with the ciphertext blocks -/
def cbcProc : Str 16 → List (Str 16) → (List (Str 16) → Proc (Str 16)) → Proc (Str 16)
  | _, [], k => k []
  | iv, b :: bs, k => .perm (maskP b iv) (fun c => cbcProc c bs (fun cs => k (c :: cs)))

/-- the ciphertext blocks under `π` -/
def cbcWith (π : Equiv.Perm (Str 16)) : Str 16 → List (Str 16) → List (Str 16)
  | _, [] => []
  | iv, b :: bs => π (maskP b iv) :: cbcWith π (π (maskP b iv)) bs

theorem cbcProc_real (π : Equiv.Perm (Str 16)) (bs : List (Str 16)) (iv : Str 16) (k : List (Str 16) → Proc (Str 16)) :
    (cbcProc iv bs k).real π = (k (cbcWith π iv bs)).real π := by
  induction bs generalizing iv k with
  | nil => rfl
  | cons b bs ih =>
    simp only [cbcProc, cbcWith, Proc.real]
    rw [ih]

theorem cbcWith_eq (π : Equiv.Perm (Str 16)) (key : Bytes) (bs : List (Str 16)) (iv : Str 16) :
    cbcEncBlocks (randomCipher π) key iv.1 (bs.map Subtype.val) = (cbcWith π iv bs).map Subtype.val := by
  induction bs generalizing iv with
  | nil => rfl
  | cons b bs ih =>
    have e : (randomCipher π).enc key (xorB iv.1 b.1) = (π (maskP b iv)).1 := by
      change (if h : (xorB iv.1 b.1).length = 16 then (π ⟨xorB iv.1 b.1, h⟩).1 else xorB iv.1 b.1) = _
      rw [dif_pos (xorB_length _ _ iv.2 b.2)]
      rfl
    simp only [List.map_cons, cbcEncBlocks, cbcWith, e]
    rw [ih]

/-- the number of blocks is all that matters when the values are drawn afresh -/
theorem cbcProc_ideal (bs bs' : List (Str 16)) (hl : bs.length = bs'.length) (iv iv' : Str 16) (k k' : List (Str 16) → Proc (Str 16))
    (hk : ∀ cs, (k cs).ideal = (k' cs).ideal) : (cbcProc iv bs k).ideal = (cbcProc iv' bs' k').ideal := by
  induction bs generalizing bs' iv iv' k k' with
  | nil =>
    cases bs' with
    | nil => exact hk []
    | cons => simp at hl
  | cons b bs ih =>
    cases bs' with
    | nil => simp at hl
    | cons b' bs' =>
      simp only [cbcProc, Proc.ideal]
      congr 1
      funext c
      exact ih bs' (by simpa using hl) c c _ _ (fun cs => hk (c :: cs))

theorem cbcProc_add (bs : List (Str 16)) (iv : Str 16) (k k' : List (Str 16) → Proc (Str 16))
    (hk : ∀ cs, (k cs).ideal + (k' cs).ideal = 1) : (cbcProc iv bs k).ideal + (cbcProc iv bs k').ideal = 1 := by
  induction bs generalizing iv k k' with
  | nil => exact hk []
  | cons b bs ih =>
    simp only [cbcProc, Proc.ideal]
    rw [← avg_add]
    have : ∀ c : Str 16, (cbcProc c bs (fun cs => k (c :: cs))).ideal + (cbcProc c bs (fun cs => k' (c :: cs))).ideal = 1 :=
      fun c => ih c _ _ (fun cs => hk (c :: cs))
    simp only [this]
    exact avg_const 1

/-- the cost of the `n` blocks after the first `t` -/
def cost (N : ℚ) (t n : Nat) : ℚ := (((t : ℚ) + n) * (t + n - 1) - (t : ℚ) * (t - 1)) / N

theorem cost_zero (N : ℚ) (t : Nat) : cost N t 0 = 0 := by
  unfold cost
  rw [Nat.cast_zero, add_zero, sub_self, zero_div]

theorem cost_succ (N : ℚ) (t n : Nat) : cost N t (n + 1) = 2 * (t / N) + cost N (t + 1) n := by
  unfold cost
  push_cast
  ring

theorem cost_nonneg (N : ℚ) (hN : 0 < N) (t n : Nat) : 0 ≤ cost N t n := by
  induction n generalizing t with
  | zero => rw [cost_zero]
  | succ n ih =>
    rw [cost_succ]
    have := ih (t + 1)
    positivity

/-- the number of blocks -/
noncomputable def NB : ℚ := Fintype.card (Str 16)

theorem NB_pos : 0 < NB := card_pos'

theorem NB_eq : NB = 2 ^ 128 := by
  unfold NB
  rw [Str.card]
  norm_num

/-- When the values are drawn afresh, an argument or a value occurs twice rarely: the block before is drawn after the message is chosen. -/
theorem cbc_good (bs : List (Str 16)) (D : List (Str 16)) (T : Str 16 → List (Str 16 × Str 16)) (hT : ∀ c, (T c).map Prod.fst = D)
    (k : Str 16 → List (Str 16) → Proc (Str 16)) (ε : ℚ) (hε : 0 ≤ ε)
    (hk : ∀ c cs T', T'.length = D.length + bs.length → (k c cs).ideal ≤ (k c cs).good T' + ε) :
    avg (fun c => (cbcProc c bs (k c)).ideal) ≤ avg (fun c => (cbcProc c bs (k c)).good (T c)) + (cost NB D.length bs.length + ε) := by
  induction bs generalizing D T k ε with
  | nil =>
    rw [List.length_nil, cost_zero, zero_add]
    have : avg (fun c => (cbcProc c [] (k c)).ideal) ≤ avg (fun c => (cbcProc c [] (k c)).good (T c) + ε) := by
      refine avg_mono fun c => ?_
      refine hk c [] (T c) ?_
      rw [← hT c, List.length_map, List.length_nil, add_zero]
    rwa [avg_add, avg_const] at this
  | cons b bs ih =>
    have hD : ∀ c, (T c).length = D.length := fun c => by rw [← hT c, List.length_map]
    have hN : (0 : ℚ) < NB := NB_pos
    have hc := cost_nonneg NB NB_pos (D.length + 1) bs.length
    have hd : 0 ≤ (D.length : ℚ) / NB := div_nonneg (Nat.cast_nonneg _) hN.le
    obtain ⟨κ, hκ⟩ : ∃ κ, κ = cost NB (D.length + 1) bs.length := ⟨_, rfl⟩
    obtain ⟨δ, hδ⟩ : ∃ δ, δ = (D.length : ℚ) / NB := ⟨_, rfl⟩
    rw [List.length_cons, cost_succ, ← hκ, ← hδ]
    rw [← hκ] at hc
    rw [← hδ] at hd
    -- for a given block before
    have step : ∀ iv : Str 16, (cbcProc iv (b :: bs) (k iv)).ideal ≤ ((cbcProc iv (b :: bs) (k iv)).good (T iv) +
        (δ + (κ + ε))) + ind D (maskP b iv) := by
      intro iv
      by_cases hin : maskP b iv ∈ D
      · rw [show ind D (maskP b iv) = 1 from if_pos hin]
        have e1 := (ideal_unit (cbcProc iv (b :: bs) (k iv))).2
        have e2 := (good_unit (cbcProc iv (b :: bs) (k iv)) (T iv)).1
        linarith
      · rw [show ind D (maskP b iv) = 0 from if_neg hin, add_zero]
        have h1 := ih (maskP b iv :: D) (fun c => (maskP b iv, c) :: T iv) (fun c => by rw [List.map_cons, hT]) (fun c cs => k iv (c :: cs)) ε hε
          (fun c cs T' hT' => hk iv (c :: cs) T' (by rw [hT', List.length_cons, List.length_cons]; omega))
        rw [List.length_cons, ← hκ] at h1
        simp only [cbcProc, Proc.ideal, Proc.good]
        rw [hT iv, if_neg hin]
        refine le_trans h1 ?_
        have h2 := avg_skip ((T iv).map Prod.snd) (fun c => (cbcProc c bs (fun cs => k iv (c :: cs))).good ((maskP b iv, c) :: T iv))
          (fun c => good_unit _ _) NB rfl
        rw [List.length_map, hD, ← hδ] at h2
        linarith
    have := avg_mono step
    rw [avg_add, avg_add, avg_const] at this
    have h4 : avg (fun iv : Str 16 => ind D (maskP b iv)) ≤ δ := by
      rw [avg_comp (maskP b) (ind D), hδ]
      exact avg_ind D NB rfl
    linarith

/-! ## The game as such a process -/

/-- the blocks of a padded message -/
def msgBlocks (m : Bytes) : List (Str 16) :=
  (blocks (m.length / 16 + 1) (pad m)).pmap (fun b h => ⟨b, h⟩) (blocks_mem _ _ (pad_length m))

theorem msgBlocks_val (m : Bytes) : (msgBlocks m).map Subtype.val = blocks ((pad m).length / 16) (pad m) := by
  unfold msgBlocks
  rw [List.map_pmap, List.pmap_eq_map, List.map_id']
  congr 1
  rw [pad_length]; omega

theorem msgBlocks_length (m : Bytes) : (msgBlocks m).length = m.length / 16 + 1 := by
  unfold msgBlocks
  rw [List.length_pmap, blocks_length]

section game
variable (mac : Mac) (ak ks : Nat) (key : Bytes) (A : OSender)

/-- what `encrypt_easy` returns, given the ciphertext blocks -/
def sealWith (aad : Bytes) (iv : Str 16) (cs : List (Str 16)) : Res Unit Bytes :=
  .ok (iv.1 ++ ((cs.map Subtype.val).flatten ++ mac.tag (key.drop ak) (aad ++ iv.1 ++ (cs.map Subtype.val).flatten)))

theorem sealWith_eq (π : Equiv.Perm (Str 16)) (aad msg : Bytes) (iv : Str 16) :
    encryptEasy (cbcHmac (randomCipher π) mac ak ks 16 mac.size) key iv.1 aad msg = sealWith mac ak key aad iv (cbcWith π iv (msgBlocks msg)) := by
  simp only [encryptEasy, cbcHmac, cbcHmacEncrypt, Res.ok_bind, Res.pure_eq, sealWith, cbcEncrypt]
  rw [← msgBlocks_val, cbcWith_eq]

/-- the game with `n` messages to go -/
def gameProc (E : List (Res Unit Bytes) → Bool) : Nat → List (Res Unit Bytes) → Proc (Str 16)
  | 0, h => .out (E h)
  | n + 1, h =>
    match A h with
    | none => .draw (fun _ => gameProc E n (.err () :: h))
    | some (aad, msg) => .draw (fun iv => cbcProc iv (msgBlocks msg) (fun cs => gameProc E n (sealWith mac ak key aad iv cs :: h)))

theorem pr_cons {X : Type} [Fintype X] [Nonempty X] (n : Nat) (P : List X → Prop) :
    pr (fun ns : Fin (n + 1) → X => P (List.ofFn ns)) = avg (fun x => pr (fun ns : Fin n → X => P (x :: List.ofFn ns))) := by
  have h := pr_prod (A := X) (B := Fin n → X) (fun p => P (p.1 :: List.ofFn p.2))
  rw [avg, ← h]
  refine (pr_bijective (Fin.consEquiv (fun _ => X)) (Fin.consEquiv (fun _ => X)).bijective (fun ns : Fin (n + 1) → X => P (List.ofFn ns))).symm.trans ?_
  congr 1
  funext p
  have : List.ofFn (Fin.consEquiv (fun _ => X) p) = p.1 :: List.ofFn p.2 := by
    rw [List.ofFn_succ]
    rfl
  rw [this]

theorem pr_compl {X : Type} [Fintype X] [Nonempty X] (P : X → Prop) : pr (fun x => ¬ P x) = 1 - pr P := by
  classical
  obtain ⟨Q, hQ⟩ : ∃ Q : X → Prop, Q = fun x => ¬ P x := ⟨_, rfl⟩
  rw [← hQ]
  unfold pr
  have h := Finset.card_filter_add_card_filter_not (s := (Finset.univ : Finset X)) P
  rw [Finset.card_univ] at h
  have h0 : (0 : ℚ) < Fintype.card X := by exact_mod_cast Fintype.card_pos
  have e : Finset.univ.filter Q = Finset.univ.filter (fun x => ¬ P x) := by
    apply Finset.filter_congr
    intro x _
    rw [hQ]
  have h1 : ((Finset.univ.filter P).card : ℚ) + ((Finset.univ.filter Q).card : ℚ) = Fintype.card X := by
    rw [e]
    exact_mod_cast h
  rw [eq_sub_iff_add_eq, ← add_div, add_comm, h1, div_self h0.ne']

theorem game_real (E : List (Res Unit Bytes) → Bool) (π : Equiv.Perm (Str 16)) (n : Nat) (h : List (Res Unit Bytes)) :
    (gameProc mac ak key A E n h).real π = pr (fun ns : Fin n → Str 16 =>
      E (observeO (cbcHmac (randomCipher π) mac ak ks 16 mac.size) key A (List.ofFn ns) h) = true) := by
  induction n generalizing h with
  | zero =>
    simp only [gameProc, Proc.real, List.ofFn_zero, observeO]
    by_cases he : E h = true
    · rw [if_pos he]
      exact (pr_one fun _ => he).symm
    · rw [if_neg he]
      exact (pr_false _ fun _ => he).symm
  | succ n ih =>
    rw [pr_cons n (fun l => E (observeO (cbcHmac (randomCipher π) mac ak ks 16 mac.size) key A l h) = true)]
    cases ho : A h with
    | none =>
      simp only [gameProc, ho, Proc.real, observeO, stepAnswer]
      refine congrArg avg (funext fun iv => ?_)
      rw [ih]
    | some p =>
      simp only [gameProc, ho, Proc.real, observeO, stepAnswer]
      refine congrArg avg (funext fun iv => ?_)
      rw [cbcProc_real, ih, sealWith_eq]

/-- the same associated data and lengths -/
def SameShape : Option (Bytes × Bytes) → Option (Bytes × Bytes) → Prop
  | none, none => True
  | some p, some p' => p.1 = p'.1 ∧ p.2.length = p'.2.length
  | _, _ => False

theorem game_ideal (A' : OSender) (hA : ∀ h, SameShape (A h) (A' h)) (E : List (Res Unit Bytes) → Bool) (n : Nat)
    (h : List (Res Unit Bytes)) : (gameProc mac ak key A E n h).ideal = (gameProc mac ak key A' E n h).ideal := by
  induction n generalizing h with
  | zero => rfl
  | succ n ih =>
    have hs := hA h
    cases ho : A h with
    | none =>
      cases ho' : A' h with
      | none =>
        simp only [gameProc, ho, ho', Proc.ideal]
        refine congrArg avg (funext fun iv => ih _)
      | some p' => rw [ho, ho'] at hs; exact hs.elim
    | some p =>
      cases ho' : A' h with
      | none => rw [ho, ho'] at hs; exact hs.elim
      | some p' =>
        rw [ho, ho'] at hs
        simp only [gameProc, ho, ho', Proc.ideal]
        refine congrArg avg (funext fun iv => ?_)
        refine cbcProc_ideal _ _ ?_ iv iv _ _ ?_
        · rw [msgBlocks_length, msgBlocks_length, hs.2]
        · intro cs
          rw [hs.1]
          exact ih _

theorem game_add (E : List (Res Unit Bytes) → Bool) (n : Nat) (h : List (Res Unit Bytes)) :
    (gameProc mac ak key A E n h).ideal + (gameProc mac ak key A (fun h => !E h) n h).ideal = 1 := by
  induction n generalizing h with
  | zero =>
    simp only [gameProc, Proc.ideal]
    cases E h <;> simp
  | succ n ih =>
    cases ho : A h with
    | none =>
      simp only [gameProc, ho, Proc.ideal]
      rw [← avg_add]
      simp only [ih]
      exact avg_const 1
    | some p =>
      simp only [gameProc, ho, Proc.ideal]
      rw [← avg_add]
      have : ∀ iv : Str 16, (cbcProc iv (msgBlocks p.2) (fun cs => gameProc mac ak key A E n (sealWith mac ak key p.1 iv cs :: h))).ideal +
          (cbcProc iv (msgBlocks p.2) (fun cs => gameProc mac ak key A (fun h => !E h) n (sealWith mac ak key p.1 iv cs :: h))).ideal = 1 :=
        fun iv => cbcProc_add _ iv _ _ fun cs => ih _
      simp only [this]
      exact avg_const 1

theorem game_good (q s : Nat) (hs : ∀ h, h.length = q → A.blocks h ≤ s) (E : List (Res Unit Bytes) → Bool) (n : Nat) (h : List (Res Unit Bytes))
    (hn : h.length + n = q) (T : List (Str 16 × Str 16)) (hT : T.length = A.blocks h) :
    A.blocks h ≤ s ∧ (gameProc mac ak key A E n h).ideal ≤ (gameProc mac ak key A E n h).good T + cost NB (A.blocks h) (s - A.blocks h) := by
  induction n generalizing h T with
  | zero =>
    have := hs h hn
    refine ⟨this, ?_⟩
    simp only [gameProc, Proc.ideal, Proc.good]
    have := cost_nonneg NB NB_pos (A.blocks h) (s - A.blocks h)
    linarith
  | succ n ih =>
    obtain ⟨l, hl⟩ : ∃ l, l = stepBlocks (A h) := ⟨_, rfl⟩
    have hb : ∀ r : Res Unit Bytes, A.blocks (r :: h) = l + A.blocks h := fun r => by rw [OSender.blocks, hl]
    have ih' := fun r T' hT' => ih (r :: h) (by rw [List.length_cons]; omega) T' hT'
    simp only [hb] at ih'
    have h0 := (ih' .panic (List.replicate (l + A.blocks h) (Classical.arbitrary _)) (List.length_replicate)).1
    refine ⟨by omega, ?_⟩
    cases ho : A h with
    | none =>
      rw [ho, stepBlocks] at hl
      subst hl
      rw [zero_add] at ih'
      simp only [gameProc, ho, Proc.ideal, Proc.good]
      have := avg_mono (fun _ : Str 16 => (ih' (.err ()) T hT).2)
      rwa [avg_add, avg_const (cost NB _ _)] at this
    | some p =>
      rw [ho, stepBlocks] at hl
      simp only [gameProc, ho, Proc.ideal, Proc.good]
      have := cbc_good (msgBlocks p.2) (T.map Prod.fst) (fun _ => T) (fun _ => rfl)
        (fun iv cs => gameProc mac ak key A E n (sealWith mac ak key p.1 iv cs :: h)) (cost NB (l + A.blocks h) (s - (l + A.blocks h)))
        (cost_nonneg NB NB_pos _ _) (fun iv cs T' hT' => (ih' _ T' (by
          rw [List.length_map, msgBlocks_length, hT] at hT'
          omega)).2)
      refine this.trans (le_of_eq ?_)
      congr 1
      rw [List.length_map, msgBlocks_length, hT, ← hl]
      unfold cost
      rw [Nat.cast_sub h0, Nat.cast_sub (show A.blocks h ≤ s by omega)]
      push_cast
      ring

/-- the distance from values drawn afresh -/
theorem game_close (q s : Nat) (hs : ∀ h, h.length = q → A.blocks h ≤ s) (E : List (Res Unit Bytes) → Bool) :
    |pr (fun ω : Equiv.Perm (Str 16) × (Fin q → Str 16) =>
      E (observeO (cbcHmac (randomCipher ω.1) mac ak ks 16 mac.size) key A (List.ofFn ω.2) []) = true) - (gameProc mac ak key A E q []).ideal| ≤
      s * (s - 1) / 2 ^ 128 := by
  have low : ∀ E : List (Res Unit Bytes) → Bool, (gameProc mac ak key A E q []).ideal ≤ pr (fun ω : Equiv.Perm (Str 16) × (Fin q → Str 16) =>
      E (observeO (cbcHmac (randomCipher ω.1) mac ak ks 16 mac.size) key A (List.ofFn ω.2) []) = true) + s * (s - 1) / 2 ^ 128 := by
    intro E
    have h1 := (game_good mac ak key A q s hs E q [] (by simp) [] rfl).2
    have h2 := good_le_avg (gameProc mac ak key A E q [])
    have h3 := pr_prod (A := Equiv.Perm (Str 16)) (B := Fin q → Str 16) (fun ω =>
      E (observeO (cbcHmac (randomCipher ω.1) mac ak ks 16 mac.size) key A (List.ofFn ω.2) []) = true)
    have h4 : ∀ π, (gameProc mac ak key A E q []).real π = _ := fun π => game_real mac ak ks key A E π q []
    simp only [h4] at h2
    rw [h3]
    refine h1.trans (add_le_add h2 (le_of_eq ?_))
    rw [OSender.blocks, cost, NB_eq, Nat.sub_zero, Nat.cast_zero]
    ring
  have h1 := low E
  have h2 := low (fun h => !E h)
  have h3 := game_add mac ak key A E q []
  have h4 := pr_compl (fun ω : Equiv.Perm (Str 16) × (Fin q → Str 16) =>
      E (observeO (cbcHmac (randomCipher ω.1) mac ak ks 16 mac.size) key A (List.ofFn ω.2) []) = true)
  have e : (fun ω : Equiv.Perm (Str 16) × (Fin q → Str 16) =>
      (!E (observeO (cbcHmac (randomCipher ω.1) mac ak ks 16 mac.size) key A (List.ofFn ω.2) [])) = true) = fun ω =>
      ¬ E (observeO (cbcHmac (randomCipher ω.1) mac ak ks 16 mac.size) key A (List.ofFn ω.2) []) = true := by
    funext ω
    rw [Bool.not_eq_true', Bool.not_eq_true]
  rw [e, h4] at h2
  rw [abs_le]
  constructor <;> linarith

/-- two senders of the same shape look alike -/
theorem senders_alike (A' : OSender) (hA : ∀ h, SameShape (A h) (A' h)) (q s : Nat) (hs : ∀ h, h.length = q → A.blocks h ≤ s)
    (E : List (Res Unit Bytes) → Prop) :
    |pr (fun ω : Equiv.Perm (Str 16) × (Fin q → Str 16) =>
        E (observeO (cbcHmac (randomCipher ω.1) mac ak ks 16 mac.size) key A (List.ofFn ω.2) [])) -
      pr (fun ω : Equiv.Perm (Str 16) × (Fin q → Str 16) =>
        E (observeO (cbcHmac (randomCipher ω.1) mac ak ks 16 mac.size) key A' (List.ofFn ω.2) []))| ≤ 2 * (s * (s - 1)) / 2 ^ 128 := by
  classical
  have hb : ∀ h, A'.blocks h = A.blocks h := by
    intro h
    induction h with
    | nil => rfl
    | cons r h ih =>
      simp only [OSender.blocks, ih]
      have := hA h
      cases ho : A h with
      | none =>
        cases ho' : A' h with
        | none => rfl
        | some p' => rw [ho, ho'] at this; exact this.elim
      | some p =>
        cases ho' : A' h with
        | none => rw [ho, ho'] at this; exact this.elim
        | some p' =>
          rw [ho, ho'] at this
          simp only [stepBlocks, this.2]
  have h1 := game_close mac ak ks key A q s hs (fun h => decide (E h))
  have h2 := game_close mac ak ks key A' q s (fun h hh => by rw [hb]; exact hs h hh) (fun h => decide (E h))
  rw [← game_ideal mac ak key A A' hA] at h2
  simp only [decide_eq_true_eq] at h1 h2
  rw [abs_le] at h1 h2 ⊢
  have e : (2 : ℚ) * (s * (s - 1)) / 2 ^ 128 = s * (s - 1) / 2 ^ 128 + s * (s - 1) / 2 ^ 128 := by ring
  rw [e]
  constructor <;> linarith [h1.1, h1.2, h2.1, h2.2]

end game

/-- an attacker's pairs: associated data, and two messages of which one is encrypted -/
abbrev Pairs := List (Res Unit Bytes) → Bytes × Bytes × Bytes

/-- the first message of every pair -/
def Pairs.left (A : Pairs) : Sender := fun h => ((A h).1, (A h).2.1)

/-- the second message of every pair -/
def Pairs.right (A : Pairs) : Sender := fun h => ((A h).1, (A h).2.2)

/-- C215: with AES a random permutation of the blocks and random nonces, whatever is concluded (`E`) from the ciphertexts of `q` messages
chosen adaptively, of `s` blocks in total, is concluded as often if other messages of the same lengths were encrypted, up to
`2 s (s - 1) / 2^128`.  The MAC, its key, the associated data, the choice of messages and the conclusion are arbitrary. -/
theorem messages_hidden (mac : Mac) (ak ks : Nat) (key : Bytes) (A : Pairs) (hA : ∀ h, (A h).2.1.length = (A h).2.2.length) (q s : Nat)
    (hs : ∀ h, h.length = q → A.left.blocks h ≤ s) (E : List (Res Unit Bytes) → Prop) :
    |pr (fun ω : Equiv.Perm (Str 16) × (Fin q → Str 16) =>
        E (observe (cbcHmac (randomCipher ω.1) mac ak ks 16 mac.size) key A.left (List.ofFn ω.2) [])) -
      pr (fun ω : Equiv.Perm (Str 16) × (Fin q → Str 16) =>
        E (observe (cbcHmac (randomCipher ω.1) mac ak ks 16 mac.size) key A.right (List.ofFn ω.2) []))| ≤ 2 * (s * (s - 1)) / 2 ^ 128 := by
  have := senders_alike mac ak ks key (fun h => some (A.left h)) (fun h => some (A.right h)) (fun h => ⟨rfl, hA h⟩) q s
    (fun h hh => by rw [blocks_some]; exact hs h hh) E
  simpa only [observeO_some] using this

/-! ## The hypotheses are met -/

/-- a message of zeros against a message that repeats the last ciphertext -/
def echo : Pairs
  | .ok ct :: _ => ([1], List.replicate 64 0, ct.take 64 ++ List.replicate (64 - (ct.take 64).length) 0)
  | _ => ([], List.replicate 64 0, List.replicate 64 1)

example : (∀ h, (echo h).2.1.length = (echo h).2.2.length) ∧ ∀ h, h.length = 3 → echo.left.blocks h ≤ 15 := by
  have hl : ∀ h, (echo h).2.1.length = 64 ∧ (echo h).2.2.length = 64 := by
    intro h
    unfold echo
    split
    · rename_i ct _
      refine ⟨List.length_replicate, ?_⟩
      have : (ct.take 64).length ≤ 64 := List.length_take_le _ _
      rw [List.length_append, List.length_replicate]
      omega
    · exact ⟨List.length_replicate, List.length_replicate⟩
  refine ⟨fun h => by rw [(hl h).1, (hl h).2], ?_⟩
  intro h hh
  match h, hh with
  | [a, b, c], _ =>
    have : ∀ h, (echo.left h).2.length = 64 := fun h => (hl h).1
    simp only [Sender.blocks, this]
    decide

/-- nonces that repeat give equal messages away: the theorem needs the random nonces -/
example (π : Equiv.Perm (Str 16)) (mac : Mac) (key : Bytes) (nonce : Str 16) (aad m : Bytes) :
    ∃ ct, observe (cbcHmac (randomCipher π) mac 16 32 16 mac.size) key (fun _ => (aad, m)) [nonce, nonce] [] = [.ok ct, .ok ct] :=
  ⟨_, rfl⟩

end Verif.Symm
