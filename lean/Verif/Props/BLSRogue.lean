import Verif.Props.BLSUnforgeable
import Verif.Props.ForkingKeep
import Verif.Props.Resample
/-!
# Forging aggregated signatures with key coefficients is as hard as the Diffie–Hellman problem (C211)

`AggregatedPublicKey::new` and `new_with_rk_mitigation` weight every key with a hash of all keys and the key.  The forger chooses the other
keys as it likes, without proofs of possession and after having seen the attacked one.

The problem is as for C200: given `P`, `x • P`, `Q` in the group of signatures and `x • g` in the group of keys, compute `x • Q`.  `attack` runs
the forger twice.
-/
set_option linter.unusedSectionVars false
set_option linter.unusedVariables false
set_option linter.unusedSimpArgs false
namespace Verif.Forgery
open Verif.Forking

/-- a forger: it outputs something, or asks for a hash value in the group, for a signature, or for a hash value in the field, and continues
with the answer -/
inductive CForger (D E S F O : Type) where
  | out (o : O)
  | hash (d : D) (next : S → CForger D E S F O)
  | sign (d : D) (next : S → CForger D E S F O)
  | coef (e : E) (next : F → CForger D E S F O)

section
variable {D E S F O : Type}

/-- what it outputs with the hash functions `H` and `t` and the signer `G` -/
def CForger.run (H G : D → S) (t : E → F) : CForger D E S F O → O
  | .out o => o
  | .hash d next => (next (H d)).run H G t
  | .sign d next => (next (G d)).run H G t
  | .coef e next => (next (t e)).run H G t

/-- what it has had signed -/
def CForger.signed (H G : D → S) (t : E → F) : CForger D E S F O → List D
  | .out _ => []
  | .hash d next => (next (H d)).signed H G t
  | .sign d next => d :: (next (G d)).signed H G t
  | .coef e next => (next (t e)).signed H G t

/-- whatever the answers, it asks at most `q` questions -/
def CForger.AtMost : Nat → CForger D E S F O → Prop
  | _, .out _ => True
  | 0, .hash _ _ => False
  | 0, .sign _ _ => False
  | 0, .coef _ _ => False
  | q + 1, .hash _ next => ∀ s, (next s).AtMost q
  | q + 1, .sign _ next => ∀ s, (next s).AtMost q
  | q + 1, .coef _ next => ∀ c, (next c).AtMost q

/-- the forger with the hash function in the field built in -/
def CForger.fix (t : E → F) : CForger D E S F O → Forger D S O
  | .out o => .out o
  | .hash d next => .hash d fun s => (next s).fix t
  | .sign d next => .sign d fun s => (next s).fix t
  | .coef e next => (next (t e)).fix t

theorem fix_run (H G : D → S) (t : E → F) : ∀ A : CForger D E S F O, (A.fix t).run H G = A.run H G t
  | .out o => rfl
  | .hash d next => fix_run H G t (next (H d))
  | .sign d next => fix_run H G t (next (G d))
  | .coef e next => fix_run H G t (next (t e))

theorem fix_signed (H G : D → S) (t : E → F) : ∀ A : CForger D E S F O, (A.fix t).signed H G = A.signed H G t
  | .out o => rfl
  | .hash d next => fix_signed H G t (next (H d))
  | .sign d next => congrArg (d :: ·) (fix_signed H G t (next (G d)))
  | .coef e next => fix_signed H G t (next (t e))

theorem Forger.AtMost.succ : ∀ (q : Nat) (A : Forger D S O), A.AtMost q → A.AtMost (q + 1)
  | _, .out o, _ => trivial
  | 0, .hash _ _, h => h.elim
  | 0, .sign _ _, h => h.elim
  | q + 1, .hash d next, h => fun s => Forger.AtMost.succ q (next s) (h s)
  | q + 1, .sign d next, h => fun s => Forger.AtMost.succ q (next s) (h s)

theorem fix_atMost (t : E → F) : ∀ (q : Nat) (A : CForger D E S F O), A.AtMost q → (A.fix t).AtMost q
  | 0, .out o, _ => trivial
  | _ + 1, .out o, _ => trivial
  | 0, .hash _ _, h => h.elim
  | 0, .sign _ _, h => h.elim
  | 0, .coef _ _, h => h.elim
  | q + 1, .hash d next, h => fun s => fix_atMost t q (next s) (h s)
  | q + 1, .sign d next, h => fun s => fix_atMost t q (next s) (h s)
  | q + 1, .coef e next, h => Forger.AtMost.succ q _ (fix_atMost t q (next (t e)) (h (t e)))

variable [DecidableEq D] [Field F] [AddCommGroup S] [Module F S]

/-- the forger run without the secret key, as `simulate`; the hash function in the field remains to be asked -/
def simulateC (P X Q : S) (f : D → Fˣ) (j : Nat) : List D → CForger D E S F O → Prover E F (Option O)
  | _, .out o => .out (some o)
  | seen, .hash d next =>
    if (add d seen)[j]? = some d then simulateC P X Q f j (add d seen) (next ((f d : F) • Q))
    else simulateC P X Q f j (add d seen) (next ((f d : F) • P))
  | seen, .sign d next =>
    if (add d seen)[j]? = some d then .out none
    else simulateC P X Q f j (add d seen) (next ((f d : F) • X))
  | seen, .coef e next => .ask e fun c => simulateC P X Q f j seen (next c)

theorem simulateC_run (P X Q : S) (f : D → Fˣ) (j : Nat) (t : E → F) : ∀ (A : CForger D E S F O) (seen : List D),
    (simulateC P X Q f j seen A).run t = simulate P X Q (fun _ => false) f j seen (A.fix t)
  | .out o, seen => rfl
  | .hash d next, seen => by
    unfold simulateC CForger.fix simulate
    simp only [Bool.false_eq_true, if_false]
    by_cases hj : (add d seen)[j]? = some d
    · rw [if_pos hj, if_pos hj]; exact simulateC_run P X Q f j t _ _
    · rw [if_neg hj, if_neg hj]; exact simulateC_run P X Q f j t _ _
  | .sign d next, seen => by
    unfold simulateC CForger.fix simulate
    simp only [Bool.false_eq_true, if_false]
    by_cases hj : (add d seen)[j]? = some d
    · rw [if_pos hj, if_pos hj]; rfl
    · rw [if_neg hj, if_neg hj]; exact simulateC_run P X Q f j t _ _
  | .coef e next, seen => by
    unfold simulateC CForger.fix
    exact simulateC_run P X Q f j t _ _

theorem Prover.AtMost.succ {D H O : Type} : ∀ (q : Nat) (A : Prover D H O), A.AtMost q → A.AtMost (q + 1)
  | _, .out o, _ => trivial
  | 0, .ask _ _, h => h.elim
  | q + 1, .ask d next, h => fun c => Prover.AtMost.succ q (next c) (h c)

theorem simulateC_atMost (P X Q : S) (f : D → Fˣ) (j : Nat) : ∀ (q : Nat) (A : CForger D E S F O) (seen : List D), A.AtMost q →
    (simulateC P X Q f j seen A).AtMost q
  | 0, .out o, seen, _ => trivial
  | _ + 1, .out o, seen, _ => trivial
  | 0, .hash _ _, _, h => h.elim
  | 0, .sign _ _, _, h => h.elim
  | 0, .coef _ _, _, h => h.elim
  | q + 1, .hash d next, seen, h => by
    unfold simulateC
    split_ifs
    · exact Prover.AtMost.succ q _ (simulateC_atMost P X Q f j q _ _ (h _))
    · exact Prover.AtMost.succ q _ (simulateC_atMost P X Q f j q _ _ (h _))
  | q + 1, .sign d next, seen, h => by
    unfold simulateC
    split_ifs
    · trivial
    · exact Prover.AtMost.succ q _ (simulateC_atMost P X Q f j q _ _ (h _))
  | q + 1, .coef e next, seen, h => fun c => simulateC_atMost P X Q f j q (next c) seen (h c)

end
end Verif.Forgery

namespace Verif.BLS.Agg
open Verif.Forking Verif.Forgery

section
variable {F K S GT : Type} [Field F] [AddCommGroup K] [Module F K] [AddCommGroup S] [Module F S]
  [AddCommGroup GT] [Module F GT] [DecidableEq GT]

/-- the random hash function to the field; strings longer than `M` bytes are never asked -/
def scalarOf {M : Nat} (t : Query M → F) (b : Bytes) : F := if hb : b.length ≤ M then t ⟨b, hb⟩ else 0

theorem scalarOf_eq {M : Nat} (t : Query M → F) (b : Bytes) (hb : b.length ≤ M) : scalarOf t b = t ⟨b, hb⟩ := by simp [scalarOf, hb]

/-- What a forger outputs: message and context, the aggregated signature, and all keys. -/
structure RkForgery (K S : Type) (size L M : Nat) where
  message : Bytes
  context : Option Bytes
  sig : S
  keys : List K
  short : (context.getD MESSAGE_CONTEXT ++ message).length ≤ L
  few : (keys.length + 1) * size ≤ M

/-- what is hashed for the forgery -/
def RkForgery.text {size L M : Nat} (o : RkForgery K S size L M) : Query L := ⟨_, o.short⟩

/-- what is hashed for the coefficient of the attacked key -/
def question (cK : Codec K) (pk : K) {L M : Nat} : Option (RkForgery K S cK.size L M) → Query M
  | none => ⟨[], Nat.zero_le _⟩
  | some o => ⟨(o.keys.map cK.enc).flatten ++ cK.enc pk, by
      have := o.few
      rw [Nat.add_mul, Nat.one_mul] at this
      rw [List.length_append, PoK.flatten_enc_length, cK.enc_length]
      exact this⟩

/-- the questions that go with it: those for all pieces of the list of keys -/
def partners (size : Nat) {M : Nat} (d : Query M) : List (Query M) :=
  ((List.range (d.1.length + 1)).filterMap fun i =>
    let l := d.1.take (d.1.length - size)
    let b := l ++ (l.drop i).take size
    if hb : b.length ≤ M then some (⟨b, hb⟩ : Query M) else none).filter fun b => b ≠ d

/-- what the reduction computes from two forgeries, the two coefficients and the exponents it has answered with -/
def solveTwo [DecidableEq K] (pk : K) {size L M : Nat} (f : Query L → Fˣ) (o o' : RkForgery K S size L M) (c c' : F) : S :=
  ((c - c') * (o.keys.count pk : F))⁻¹ • (((f o.text : F)⁻¹) • o.sig - ((f o'.text : F)⁻¹) • o'.sig)

/-- the reduction: run the forger without the secret key, and again with other answers from the question for the attacked key's coefficient on -/
def attack [DecidableEq K] (P X Q : S) (cK : Codec K) (pk : K) {L M : Nat} (A : CForger (Query L) (Query M) S F (RkForgery K S cK.size L M))
    (j : Nat) (f : Query L → Fˣ) (t t' : Query M → F) : Option S :=
  let B := simulateC P X Q f j [] A
  let t2 := secondKeep (question cK pk) (partners cK.size) B t t'
  match B.run t, B.run t2 with
  | some o, some o' => some (solveTwo pk f o o' (t (question cK pk (some o))) (t2 (question cK pk (some o'))))
  | _, _ => none

theorem partner_mem (cK : Codec K) (pk : K) {L M : Nat} (o : RkForgery K S cK.size L M) (k : K) (hk : k ∈ o.keys) (hne : k ≠ pk)
    (hb : ((o.keys.map cK.enc).flatten ++ cK.enc k).length ≤ M) :
    (⟨(o.keys.map cK.enc).flatten ++ cK.enc k, hb⟩ : Query M) ∈ partners cK.size (question cK pk (some o)) := by
  unfold partners
  rw [List.mem_filter]
  constructor
  · rw [List.mem_filterMap]
    obtain ⟨l1, l2, hl⟩ := List.append_of_mem hk
    have hlen : (question cK pk (some o)).1.length - cK.size = ((o.keys.map cK.enc).flatten).length := by
      change ((o.keys.map cK.enc).flatten ++ cK.enc pk).length - _ = _
      rw [List.length_append, cK.enc_length, Nat.add_sub_cancel]
    have htake : (question cK pk (some o)).1.take ((question cK pk (some o)).1.length - cK.size) = (o.keys.map cK.enc).flatten := by
      rw [hlen]
      exact List.take_left
    refine ⟨((l1.map cK.enc).flatten).length, ?_, ?_⟩
    · rw [List.mem_range]
      change _ < ((o.keys.map cK.enc).flatten ++ cK.enc pk).length + 1
      rw [hl, List.map_append, List.flatten_append, List.length_append, List.length_append]
      omega
    · dsimp only
      rw [htake]
      have hw : ((o.keys.map cK.enc).flatten.drop ((l1.map cK.enc).flatten).length).take cK.size = cK.enc k := by
        rw [hl, List.map_append, List.flatten_append, List.drop_left, List.map_cons, List.flatten_cons]
        conv_lhs => rw [← cK.enc_length k]
        exact List.take_left
      rw [hw, dif_pos hb]
  · rw [decide_eq_true_iff]
    intro h
    have : (o.keys.map cK.enc).flatten ++ cK.enc k = (o.keys.map cK.enc).flatten ++ cK.enc pk := congrArg Subtype.val h
    exact hne (cK.enc_injective (List.append_cancel_left this))

theorem partners_not (size : Nat) {M : Nat} (d : Query M) : d ∉ partners size d := by
  unfold partners
  rw [List.mem_filter]
  rintro ⟨_, h⟩
  rw [decide_eq_true_iff] at h
  exact h rfl

theorem question_inj (cK : Codec K) (hs : 0 < cK.size) (pk : K) {L M : Nat} (o o' : RkForgery K S cK.size L M)
    (h : question cK pk (some o) = question cK pk (some o')) : o.keys = o'.keys := by
  have h1 : (o.keys.map cK.enc).flatten ++ cK.enc pk = (o'.keys.map cK.enc).flatten ++ cK.enc pk := congrArg Subtype.val h
  have h2 := List.append_cancel_right h1
  refine encs_injective cK _ _ h2 ?_
  have := congrArg List.length h2
  rw [PoK.flatten_enc_length, PoK.flatten_enc_length] at this
  exact Nat.eq_of_mul_eq_mul_right hs this

theorem sum_count [DecidableEq K] (pk : K) (c : K → F) : ∀ keys : List K,
    (keys.map (fun k => c k • k)).sum = ((keys.count pk : F) * c pk) • pk + ((keys.filter (fun k => k ≠ pk)).map (fun k => c k • k)).sum
  | [] => by simp
  | k :: keys => by
    rw [List.map_cons, List.sum_cons, sum_count pk c keys]
    by_cases h : k = pk
    · rw [h, List.count_cons_self, List.filter_cons_of_neg (by simp)]
      push_cast
      module
    · rw [List.count_cons_of_ne h, List.filter_cons_of_pos (by simpa using h), List.map_cons, List.sum_cons]
      abel

variable [Fintype F] [DecidableEq F] [DecidableEq S] [DecidableEq K] {R : Type} [Fintype R]

/-- what the verifier accepts from a forger, with `pk` among the keys -/
def Accepted (e : K →ₗ[F] S →ₗ[F] GT) (g pk : K) (cK : Codec K) (hash : Bytes → S) (hF : Bytes → F) {L M : Nat}
    (o : RkForgery K S cK.size L M) : Prop :=
  (o.keys.count pk : F) ≠ 0 ∧ sigVerify e hash o.sig o.message o.context (aggregatedKey hF cK.enc o.keys) g = true

/-- two forgeries with the same keys and the same coefficients but for that of the attacked key -/
theorem two_solve (e : K →ₗ[F] S →ₗ[F] GT) (g : K) (hnd : NonDeg e g) (hgen : ∀ k : K, ∃ t : F, k = t • g) (cK : Codec K) (P : S) (x : F)
    {L M : Nat} (a : Fˣ) (f : Query L → Fˣ) (o o' : RkForgery K S cK.size L M) (t t' : Query M → F)
    (hq : o.keys = o'.keys) (hc : t (question cK (x • g) (some o)) ≠ t' (question cK (x • g) (some o')))
    (hsame : ∀ k ∈ o.keys, k ≠ x • g → scalarOf t' ((o.keys.map cK.enc).flatten ++ cK.enc k) = scalarOf t ((o.keys.map cK.enc).flatten ++ cK.enc k))
    (h : Accepted e g (x • g) cK (hashTo P (programmed (fun _ => false) a o.text f)) (scalarOf t) o)
    (h' : Accepted e g (x • g) cK (hashTo P (programmed (fun _ => false) a o'.text f)) (scalarOf t') o') :
    solveTwo (x • g) f o o' (t (question cK (x • g) (some o))) (t' (question cK (x • g) (some o'))) = x • (a : F) • P := by
  obtain ⟨hn, hv⟩ := h
  obtain ⟨-, hv'⟩ := h'
  have hh : ∀ o : RkForgery K S cK.size L M,
      hashMsg (hashTo P (programmed (fun _ => false) a o.text f)) o.message o.context = (f o.text : F) • (a : F) • P := by
    intro o
    change hashTo P _ o.text.1 = _
    rw [hashTo_eq]
    simp only [programmed]
    rw [if_pos (by simp), Units.val_mul, smul_smul, mul_comm]
  have hkey : ∀ (o : RkForgery K S cK.size L M) (t : Query M → F), aggregatedKey (scalarOf t) cK.enc o.keys =
      ((o.keys.count (x • g) : F) * t (question cK (x • g) (some o))) • x • g +
        ((o.keys.filter (fun k => k ≠ x • g)).map (fun k => scalarOf t ((o.keys.map cK.enc).flatten ++ cK.enc k) • k)).sum := by
    intro o t
    unfold aggregatedKey
    rw [foldl_add_sum (fun k : K => coeff (scalarOf t) cK.enc o.keys k • k), zero_add]
    have := sum_count (x • g) (fun k => scalarOf t ((o.keys.map cK.enc).flatten ++ cK.enc k)) o.keys
    refine this.trans ?_
    have hb : scalarOf t ((o.keys.map cK.enc).flatten ++ cK.enc (x • g)) = t (question cK (x • g) (some o)) :=
      scalarOf_eq t _ (question cK (x • g) (some o)).2
    rw [hb]
  obtain ⟨s, hs⟩ := hgen (((o.keys.filter (fun k => k ≠ x • g)).map (fun k => scalarOf t ((o.keys.map cK.enc).flatten ++ cK.enc k) • k)).sum)
  have hs' : ((o'.keys.filter (fun k => k ≠ x • g)).map (fun k => scalarOf t' ((o'.keys.map cK.enc).flatten ++ cK.enc k) • k)).sum = s • g := by
    rw [← hs, ← hq]
    congr 1
    refine List.map_congr_left fun k hk => ?_
    rw [List.mem_filter, decide_eq_true_iff] at hk
    rw [hsame k hk.1 hk.2]
  unfold sigVerify at hv hv'
  rw [hkey o t, hs, smul_smul, ← add_smul, ate2_iff e g _ _ _ hnd, hh] at hv
  rw [hkey o' t', hs', smul_smul, ← add_smul, ate2_iff e g _ _ _ hnd, hh, ← hq] at hv'
  unfold solveTwo
  rw [hv, hv', smul_comm _ (f o.text : F), smul_comm _ (f o'.text : F), smul_smul (f o.text : F)⁻¹, smul_smul (f o'.text : F)⁻¹,
    inv_mul_cancel₀ (Units.ne_zero _), inv_mul_cancel₀ (Units.ne_zero _), one_smul, one_smul, ← sub_smul, smul_smul]
  congr 1
  have hd : t (question cK (x • g) (some o)) - t' (question cK (x • g) (some o')) ≠ 0 := sub_ne_zero.2 hc
  field_simp
  ring

theorem grow {z y Q N S : ℚ} (hz : 0 ≤ z) (hzy : z ≤ y) (hQ : 0 < Q) (h : y ^ 2 / Q - y / N ≤ S) (h0 : 0 ≤ S) : z ^ 2 / Q - z / N ≤ S := by
  have e1 : z ^ 2 / Q - z / N = z * (z / Q - 1 / N) := by ring
  have e2 : y ^ 2 / Q - y / N = y * (y / Q - 1 / N) := by ring
  rw [e1]
  rw [e2] at h
  by_cases hc : z / Q - 1 / N ≤ 0
  · exact (mul_nonpos_of_nonneg_of_nonpos hz hc).trans h0
  · push Not at hc
    refine le_trans (mul_le_mul hzy ?_ hc.le (hz.trans hzy)) h
    have := div_le_div_of_nonneg_right hzy hQ.le
    linarith

/-- **C211** A forger is given the key `pk` of `x` and may ask for hash values (in the group and in the field) and for signatures.  It wins with
an aggregated signature, verified under the aggregated key of any keys of its choice among which `pk` is, on a message it has not had signed.
If it wins with probability `ε` after at most `q` questions, then `attack`, which knows `P`, `x • P`, `Q` and `pk` only, solves the
Diffie–Hellman problem with probability at least `(ε / (q + 1))² / (q + 1) - (ε / (q + 1)) / |F|`. -/
theorem rogue_keys_useless (e : K →ₗ[F] S →ₗ[F] GT) (g : K) (hnd : NonDeg e g) (hgen : ∀ k : K, ∃ t : F, k = t • g)
    (cK : Codec K) (hs : 0 < cK.size) (P : S) (x : F) (L M : Nat)
    (A : R → K → CForger (Query L) (Query M) S F (RkForgery K S cK.size L M)) (q : Nat) (hq : ∀ ρ pk, (A ρ pk).AtMost q) :
    let pk : K := publicKey x g
    let wins (ρ : R) (h : Query L → Fˣ) (t : Query M → F) : Prop :=
      let hash := hashTo P h
      let hashes : Query L → S := fun d => hash d.1
      let signer : Query L → S := fun d => sigNew hash d.1 (some []) x
      let o := (A ρ pk).run hashes signer t
      Accepted e g pk cK hash (scalarOf t) o ∧ o.text ∉ (A ρ pk).signed hashes signer t
    let ε := pr fun ω : R × (Query L → Fˣ) × (Query M → F) => wins ω.1 ω.2.1 ω.2.2
    (ε / (q + 1)) ^ 2 / (q + 1) - ε / (q + 1) / Fintype.card F ≤
      pr fun ω : (Fin (q + 1) × R × Fˣ × (Query L → Fˣ)) × (Query M → F) × (Query M → F) =>
        attack P (x • P) ((ω.1.2.2.1 : F) • P) cK pk (A ω.1.2.1 pk) ω.1.1 ω.1.2.2.2 ω.2.1 ω.2.2 = some (x • (ω.1.2.2.1 : F) • P) := by
  intro pk wins ε
  have hhash : ∀ h : Query L → Fˣ, (fun d : Query L => hashTo P h d.1) = fun d => (h d : F) • P := by
    intro h; funext d; exact hashTo_eq P h d
  have hsigner : ∀ h : Query L → Fˣ, (fun d : Query L => sigNew (hashTo P h) d.1 (some []) x) = fun d => x • (h d : F) • P := by
    intro h; funext d
    simp only [sigNew, hashMsg, hashToPoint, Option.getD_some, List.nil_append, hashTo_eq]
  -- without the secret key
  let B (ρ : Fin (q + 1) × R × Fˣ × (Query L → Fˣ)) := simulateC P (x • P) ((ρ.2.2.1 : F) • P) ρ.2.2.2 ρ.1 [] (A ρ.2.1 pk)
  let acc : Fin (q + 1) × R × Fˣ × (Query L → Fˣ) → Option (RkForgery K S cK.size L M) → (Query M → F) → Prop := fun ρ r t =>
    ∃ o, r = some o ∧ Accepted e g pk cK (hashTo P (programmed (fun _ => false) ρ.2.2.1 o.text ρ.2.2.2)) (scalarOf t) o
  have h1 := reduction_core P x (fun _ => false) (fun ρ : R × (Query M → F) => (A ρ.1 pk).fix ρ.2) q (fun ρ => fix_atMost ρ.2 q _ (hq ρ.1 pk))
    (fun o => o.text) (fun ρ h o => Accepted e g pk cK (hashTo P h) (scalarOf ρ.2) o)
  have h2 : ε ≤ pr fun ω : (R × (Query M → F)) × (Query L → Fˣ) => wins ω.1.1 ω.2 ω.1.2 := by
    refine le_of_eq ?_
    have hb : Function.Bijective fun ω : (R × (Query M → F)) × (Query L → Fˣ) => (ω.1.1, ω.2, ω.1.2) :=
      Function.bijective_iff_has_inverse.2 ⟨fun ω => ((ω.1, ω.2.2), ω.2.1), fun _ => rfl, fun _ => rfl⟩
    exact (pr_bijective _ hb (fun ω : R × (Query L → Fˣ) × (Query M → F) => wins ω.1 ω.2.1 ω.2.2)).symm
  have h3 : (pr fun ω : (R × (Query M → F)) × (Query L → Fˣ) => wins ω.1.1 ω.2 ω.1.2) ≤
      pr fun ω : (R × (Query M → F)) × (Query L → Fˣ) =>
        let H : Query L → S := fun d => (ω.2 d : F) • P
        let o := ((A ω.1.1 pk).fix ω.1.2).run H (fun d => x • H d)
        Accepted e g pk cK (hashTo P ω.2) (scalarOf ω.1.2) o ∧
          ∀ d ∈ ((A ω.1.1 pk).fix ω.1.2).signed H (fun d => x • H d), d ≠ o.text ∧ (fun _ : Query L => false) d = false := pr_mono (fun ω hw => by
    obtain ⟨w1, w2⟩ := hw
    rw [hhash, hsigner] at w1 w2
    refine ⟨?_, fun d hd => ⟨fun he => w2 ?_, rfl⟩⟩
    · rw [fix_run]; exact w1
    · rw [fix_signed] at hd
      rw [fix_run] at he
      rw [← he]; exact hd)
  have h4 : ε / (q + 1) ≤ pr fun ω : (Fin (q + 1) × R × Fˣ × (Query L → Fˣ)) × (Query M → F) => acc ω.1 ((B ω.1).run ω.2) ω.2 := by
    refine (div_le_div_of_nonneg_right (h2.trans h3) (by positivity)).trans (h1.trans (le_of_eq ?_))
    have hb : Function.Bijective fun ω : (Fin (q + 1) × R × Fˣ × (Query L → Fˣ)) × (Query M → F) =>
        (ω.1.1, (ω.1.2.1, ω.2), ω.1.2.2.1, ω.1.2.2.2) :=
      Function.bijective_iff_has_inverse.2 ⟨fun ω => ((ω.1, ω.2.1.1, ω.2.2.1, ω.2.2.2), ω.2.1.2), fun _ => rfl, fun _ => rfl⟩
    refine (pr_bijective _ hb _).symm.trans ?_
    congr 1
    funext ω
    simp only [acc, B, simulateC_run]
  -- twice
  have h5 := forking_keep (question cK pk) (partners cK.size) (partners_not cK.size) acc B q (fun ρ => simulateC_atMost _ _ _ _ _ q _ _ (hq ρ.2.1 pk))
  dsimp only at h5
  have h6 : (pr fun ω : (Fin (q + 1) × R × Fˣ × (Query L → Fˣ)) × (Query M → F) × (Query M → F) =>
      ForksKeep (question cK pk) (partners cK.size) (acc ω.1) (B ω.1) ω.2.1 ω.2.2) ≤
      pr fun ω : (Fin (q + 1) × R × Fˣ × (Query L → Fˣ)) × (Query M → F) × (Query M → F) =>
        attack P (x • P) ((ω.1.2.2.1 : F) • P) cK pk (A ω.1.2.1 pk) ω.1.1 ω.1.2.2.2 ω.2.1 ω.2.2 = some (x • (ω.1.2.2.1 : F) • P) := by
    refine pr_mono ?_
    rintro ⟨ρ, t, t'⟩ ⟨⟨o, ho, ha⟩, ⟨o', ho', ha'⟩, hqq, hne⟩
    dsimp only at ho ha ho' ha' hqq hne ⊢
    rw [ho, ho'] at hqq hne
    have hkeys := question_inj cK hs pk o o' hqq
    unfold attack
    dsimp only
    rw [show simulateC P (x • P) ((ρ.2.2.1 : F) • P) ρ.2.2.2 ρ.1 [] (A ρ.2.1 pk) = B ρ from rfl, ho, ho']
    dsimp only
    refine congrArg some (two_solve e g hnd hgen cK P x ρ.2.2.1 ρ.2.2.2 o o' t _ hkeys hne ?_ ha ha')
    intro k hk hkne
    have hlen : ((o.keys.map cK.enc).flatten ++ cK.enc k).length ≤ M := by
      have := (question cK pk (some o)).2
      change ((o.keys.map cK.enc).flatten ++ cK.enc pk).length ≤ M at this
      rw [List.length_append, cK.enc_length] at this ⊢
      exact this
    rw [scalarOf_eq _ _ hlen, scalarOf_eq _ _ hlen]
    unfold secondKeep reset
    rw [if_pos]
    rw [ho]
    exact List.mem_append_right _ (partner_mem cK pk o k hk hkne hlen)
  have h7 := h5.trans h6
  have h8 : (0 : ℚ) ≤ pr fun ω : (Fin (q + 1) × R × Fˣ × (Query L → Fˣ)) × (Query M → F) × (Query M → F) =>
        attack P (x • P) ((ω.1.2.2.1 : F) • P) cK pk (A ω.1.2.1 pk) ω.1.1 ω.1.2.2.2 ω.2.1 ω.2.2 = some (x • (ω.1.2.2.1 : F) • P) := pr_nonneg _
  have hε : 0 ≤ ε / ((q : ℚ) + 1) := div_nonneg (pr_nonneg _) (by positivity)
  generalize (pr fun ω : (Fin (q + 1) × R × Fˣ × (Query L → Fˣ)) × (Query M → F) × (Query M → F) =>
        attack P (x • P) ((ω.1.2.2.1 : F) • P) cK pk (A ω.1.2.1 pk) ω.1.1 ω.1.2.2.2 ω.2.1 ω.2.2 = some (x • (ω.1.2.2.1 : F) • P)) = S at h7 h8 ⊢
  exact grow hε h4 (by positivity) h7 h8

/-- Signatures made by `new_with_rk_mitigation` are signatures of the game, times a hash value: a forger that has them made asks the signer of the
game and for that hash value. -/
theorem signer_covers_rk (hash : Bytes → S) (hF : Bytes → F) (enc : K → Bytes) (message : Bytes) (context : Option Bytes) (sk : F) (i : Nat)
    (pks : List K) (k : K) (hk : pks[i]? = some k) :
    sigNewRk hash hF enc message context sk i pks =
      .ok (hF ((pks.map enc).flatten ++ enc k) • sigNew hash (context.getD MESSAGE_CONTEXT ++ message) (some []) sk) := by
  unfold sigNewRk
  rw [hk]
  simp [Res.unwrap, coeff, sigNew, hashMsg, hashToPoint]

/-- somebody who knows the secret key `x` signs for itself and for another signer with secret key `y` -/
def insider (cK : Codec K) (g : K) (x y : F) {L M : Nat} (hM : 3 * cK.size ≤ M) (m : Query L) :
    CForger (Query L) (Query M) S F (RkForgery K S cK.size L M) :=
  have hb (k : K) : (([x • g, y • g].map cK.enc).flatten ++ cK.enc k).length ≤ M := by
    simp only [List.map_cons, List.map_nil, List.flatten_cons, List.flatten_nil, List.length_append, cK.enc_length, List.length_nil]
    omega
  .hash m fun H => .coef ⟨([x • g, y • g].map cK.enc).flatten ++ cK.enc (x • g), hb _⟩ fun c =>
    .coef ⟨([x • g, y • g].map cK.enc).flatten ++ cK.enc (y • g), hb _⟩ fun c' =>
      .out ⟨m.1, some [], (c * x + c' * y) • H, [x • g, y • g], m.2, hM⟩

/-- the hypotheses are met, and the bound is not void: such a forger always wins -/
theorem insider_bound (e : K →ₗ[F] S →ₗ[F] GT) (g : K) (hnd : NonDeg e g) (hgen : ∀ k : K, ∃ t : F, k = t • g)
    (cK : Codec K) (hs : 0 < cK.size) (P : S) (x y : F) (hxy : x • g ≠ y • g) (L M : Nat) (hM : 3 * cK.size ≤ M) (m : Query L) :
    1 / 64 - 1 / (4 * (Fintype.card F : ℚ)) ≤
      pr fun ω : (Fin 4 × Unit × Fˣ × (Query L → Fˣ)) × (Query M → F) × (Query M → F) =>
        attack P (x • P) ((ω.1.2.2.1 : F) • P) cK (x • g) (insider cK g x y hM m) ω.1.1 ω.1.2.2.2 ω.2.1 ω.2.2 = some (x • (ω.1.2.2.1 : F) • P) := by
  have h := rogue_keys_useless (R := Unit) e g hnd hgen cK hs P x L M (fun _ _ => insider cK g x y hM m) 3
    (fun _ _ => fun _ _ _ => trivial)
  dsimp only at h
  rw [pr_one] at h
  · refine le_trans (le_of_eq ?_) h
    have : (Fintype.card F : ℚ) ≠ 0 := Nat.cast_ne_zero.2 Fintype.card_ne_zero
    norm_num
    field_simp
  · rintro ⟨-, h, t⟩
    dsimp only
    refine ⟨⟨?_, ?_⟩, by simp [insider, CForger.signed]⟩
    · simp only [insider, CForger.run, publicKey]
      rw [List.count_cons_self, List.count_cons_of_ne hxy.symm, List.count_nil]
      simp
    · have hb (k : K) : (([x • g, y • g].map cK.enc).flatten ++ cK.enc k).length ≤ M := by
        simp only [List.map_cons, List.map_nil, List.flatten_cons, List.flatten_nil, List.length_append, cK.enc_length, List.length_nil]
        omega
      unfold sigVerify
      simp only [insider, CForger.run, aggregatedKey, coeff, List.foldl_cons, List.foldl_nil, zero_add]
      rw [scalarOf_eq _ _ (hb _), scalarOf_eq _ _ (hb _), smul_smul, smul_smul, ← add_smul, ate2_iff e g _ _ _ hnd]
      simp only [hashMsg, hashToPoint, Option.getD_some, List.nil_append]
      
end

namespace Toy
open Verif.Toy Verif.BLS.Toy
local instance : Fact (Nat.Prime 101) := fact101
example : (0 : ℚ) < 1 / 64 - 1 / (4 * (Fintype.card T : ℚ)) := by rw [ZMod.card]; norm_num
example := (insider_bound e (3 : T) nondeg generates codec101 (by decide) (5 : T) (7 : T) (9 : T) (by decide +kernel) 4 3 (by decide) ⟨[1, 2], by decide⟩)
end Toy
end Verif.BLS.Agg
