import Verif.Props.BLS
import Verif.Props.BLSReduction
/-!
# Forging BLS signatures and multi-signatures is as hard as the Diffie–Hellman problem (C200)

The problem: given `P`, `x • P`, `Q` in the group of signatures and `x • gen` in the group of keys, compute `x • Q`.
-/
set_option linter.unusedSectionVars false
set_option linter.unusedVariables false
set_option linter.unusedSimpArgs false
namespace Verif.BLS
open Verif.Forking Verif.Forgery

section
variable {F K S GT : Type} [Field F] [AddCommGroup K] [Module F K] [AddCommGroup S] [Module F S]
  [AddCommGroup GT] [Module F GT] [DecidableEq GT]

/-- the random number for a byte string; strings longer than `L` bytes are never asked -/
def expOf {L : Nat} (h : Query L → Fˣ) (b : Bytes) : Fˣ := if hb : b.length ≤ L then h ⟨b, hb⟩ else 1

/-- the random hash function to the points other than that at infinity -/
def hashTo {L : Nat} (P : S) (h : Query L → Fˣ) : Bytes → S := fun b => (expOf h b : F) • P

theorem hashTo_eq {L : Nat} (P : S) (h : Query L → Fˣ) (q : Query L) : hashTo P h q.1 = (h q : F) • P := by
  simp [hashTo, expOf, q.2]

theorem expOf_eq {L : Nat} (h : Query L → Fˣ) (b : Bytes) (hb : b.length ≤ L) : expOf h b = h ⟨b, hb⟩ := by simp [expOf, hb]

/-- What a forger of multi-signatures outputs: the message, the multi-signature, the keys of the other signers with their proofs of
possession, and where in the list of keys the attacked one stands. -/
structure MultiForgery (K S : Type) (L : Nat) where
  message : Query L
  sig : Encoded S
  others : List (Encoded K × Encoded S)
  position : Nat

/-- the keys the verifier is given -/
def MultiForgery.keys {L : Nat} (o : MultiForgery K S L) (vk : Encoded K) : List (Encoded K) :=
  (o.others.take o.position).map Prod.fst ++ vk :: (o.others.drop o.position).map Prod.fst

theorem keys_sum {L : Nat} (o : MultiForgery K S L) (vk : Encoded K) :
    (o.keys vk).foldl (fun acc v => acc + v.point) 0 = vk.point + (o.others.map (fun p => p.1.point)).sum := by
  rw [foldl_add_sum (fun v : Encoded K => v.point), zero_add, MultiForgery.keys, List.map_append, List.map_cons, List.sum_append, List.sum_cons,
    List.map_map, List.map_map]
  have : (o.others.map (fun p => p.1.point)).sum =
      ((o.others.take o.position).map (fun p => p.1.point)).sum + ((o.others.drop o.position).map (fun p => p.1.point)).sum := by
    rw [← List.sum_append, ← List.map_append, List.take_append_drop]
  rw [this]
  simp only [Function.comp_def]
  abel

/-- what the reduction computes from the forgery and the exponents it has answered with -/
def solveMulti {L : Nat} (f : Query L ⊕ Query L → Fˣ) (o : MultiForgery K S L) : S :=
  ((f (.inl o.message) : F)⁻¹) • o.sig.point -
    (o.others.map (fun p => ((expOf (f ∘ Sum.inr) p.1.bytes : F)⁻¹) • p.2.point)).sum

/-- the proofs of possession that are answered with multiples of the problem's point: all but that of the attacked key -/
def otherKeys {L : Nat} (own : Bytes) : Query L ⊕ Query L → Bool
  | .inl _ => false
  | .inr b => decide (b.1 ≠ own)

variable [Fintype F] [DecidableEq F] [DecidableEq S] {R : Type} [Fintype R]

/-- **C200** (libursa/src/bls) A forger is given the key `vk` of `x` and may ask for hash values (both hash functions), for signatures, and for the
proof of possession of `vk`.  It wins with a multi-signature on a message it has not had signed, for `vk` and other keys, all with accepted
proofs of possession.  If it wins with probability `ε` after at most `q` questions, then running it as `simulate` does, without `x`,
solves the Diffie–Hellman problem with probability at least `ε / (q + 1)`. -/
theorem multisig_unforgeable (e : K →ₗ[F] S →ₗ[F] GT) (gen : K) (hnd : NonDeg e gen) (hgen : ∀ k : K, ∃ t : F, k = t • gen)
    (cK : PointCodec K) (cS : PointCodec S) (P : S) (x : F) (L : Nat) (hL : cK.size ≤ L)
    (A : R → Encoded K → Forger (Query L ⊕ Query L) S (MultiForgery K S L)) (q : Nat)
    (hq : ∀ ρ vk, (A ρ vk).AtMost q) :
    let vk : Encoded K := verKeyNew cK gen x
    let wins (ρ : R) (h : Query L ⊕ Query L → Fˣ) : Prop :=
      let sha := hashTo P (h ∘ Sum.inl)
      let keccak := hashTo P (h ∘ Sum.inr)
      let hash : Query L ⊕ Query L → S := Sum.elim (fun m => sha m.1) (fun b => keccak b.1)
      let signer : Query L ⊕ Query L → S :=
        Sum.elim (fun m => (sign cS sha m.1 x).point) (fun b => (popNew cS keccak (⟨vk.point, b.1⟩ : Encoded K) x).point)
      let o := (A ρ vk).run hash signer
      let signed := (A ρ vk).signed hash signer
      (∀ p ∈ o.others, Encoded.fromBytes cK p.1.bytes = .ok p.1 ∧ p.1.bytes ≠ vk.bytes ∧ verifyPop e keccak p.2 p.1 gen = true) ∧
      verifyMultiSig e sha o.sig o.message.1 (o.keys vk) gen = true ∧
      Sum.inl o.message ∉ signed ∧ ∀ b, Sum.inr b ∈ signed → b.1 = vk.bytes
    (pr fun ω : R × (Query L ⊕ Query L → Fˣ) => wins ω.1 ω.2) / (q + 1) ≤
      pr fun ω : Fin (q + 1) × R × Fˣ × (Query L ⊕ Query L → Fˣ) =>
        (simulate P (x • P) ((ω.2.2.1 : F) • P) (otherKeys vk.bytes) ω.2.2.2 ω.1 [] (A ω.2.1 vk)).map (solveMulti ω.2.2.2) =
          some (x • (ω.2.2.1 : F) • P) := by
  intro vk wins
  let win : (Query L ⊕ Query L → Fˣ) → MultiForgery K S L → Prop := fun h o =>
    (∀ p ∈ o.others, Encoded.fromBytes cK p.1.bytes = .ok p.1 ∧ p.1.bytes ≠ vk.bytes ∧
      verifyPop e (hashTo P (h ∘ Sum.inr)) p.2 p.1 gen = true) ∧
    verifyMultiSig e (hashTo P (h ∘ Sum.inl)) o.sig o.message.1 (o.keys vk) gen = true
  have hhash : ∀ h : Query L ⊕ Query L → Fˣ, (Sum.elim (fun m : Query L => hashTo P (h ∘ Sum.inl) m.1) (fun b => hashTo P (h ∘ Sum.inr) b.1)) =
      fun d => (h d : F) • P := by
    intro h; funext d
    cases d <;> simp only [Sum.elim_inl, Sum.elim_inr, hashTo_eq, Function.comp]
  have hsigner : ∀ h : Query L ⊕ Query L → Fˣ, (Sum.elim (fun m : Query L => (sign cS (hashTo P (h ∘ Sum.inl)) m.1 x).point)
      (fun b => (popNew cS (hashTo P (h ∘ Sum.inr)) (⟨vk.point, b.1⟩ : Encoded K) x).point)) = fun d => x • (h d : F) • P := by
    intro h; funext d
    cases d <;> simp only [Sum.elim_inl, Sum.elim_inr, sign, popNew, genSignature, hashTo_eq, Function.comp]
  have key := reduction P x (otherKeys vk.bytes) (fun ρ => A ρ vk) q (fun ρ => hq ρ vk) (fun o => Sum.inl o.message) win solveMulti ?_
  · refine le_trans (div_le_div_of_nonneg_right (pr_mono ?_) (by positivity)) key
    rintro ⟨ρ, h⟩ hw
    simp only [wins, hhash, hsigner] at hw
    obtain ⟨w1, w2, w3, w4⟩ := hw
    refine ⟨⟨w1, w2⟩, fun d hd => ⟨fun he => w3 (he ▸ hd), ?_⟩⟩
    cases d with
    | inl m => rfl
    | inr b => simpa [otherKeys] using w4 b hd
  · intro a f o hw
    obtain ⟨w1, w2⟩ := hw
    have hother : ∀ l : List (Encoded K × Encoded S), (∀ p ∈ l, Encoded.fromBytes cK p.1.bytes = .ok p.1 ∧ p.1.bytes ≠ vk.bytes ∧
        verifyPop e (hashTo P (programmed (otherKeys vk.bytes) a (Sum.inl o.message) f ∘ Sum.inr)) p.2 p.1 gen = true) →
        ∃ t : F, (l.map (fun p => p.1.point)).sum = t • gen ∧
          (l.map (fun p => ((expOf (f ∘ Sum.inr) p.1.bytes : F)⁻¹) • p.2.point)).sum = t • (a : F) • P := by
      intro l
      induction l with
      | nil => intro _; exact ⟨0, by simp, by simp⟩
      | cons p l ih =>
        intro hl
        obtain ⟨t, h1, h2⟩ := ih (fun p' hp' => hl p' (by simp [hp']))
        obtain ⟨g1, g2, g3⟩ := hl p (by simp)
        obtain ⟨u, hu⟩ := hgen p.1.point
        have hlen : p.1.bytes.length ≤ L := by
          unfold Encoded.fromBytes PointCodec.parse at g1
          by_cases hs : p.1.bytes.length ≠ cK.size
          · rw [if_pos hs] at g1; cases g1
          · rw [not_not] at hs; omega
        unfold verifyPop at g3
        rw [hu, verifySignature_iff e _ _ _ gen u hnd] at g3
        have hh : hashTo P (programmed (otherKeys vk.bytes) a (Sum.inl o.message) f ∘ Sum.inr) p.1.bytes =
            (expOf (f ∘ Sum.inr) p.1.bytes : F) • (a : F) • P := by
          rw [hashTo_eq P _ ⟨p.1.bytes, hlen⟩, expOf_eq _ _ hlen]
          simp only [Function.comp, programmed]
          rw [if_pos (Or.inl (by simp [otherKeys, g2])), Units.val_mul, smul_smul, mul_comm]
        refine ⟨u + t, ?_, ?_⟩
        · rw [List.map_cons, List.sum_cons, h1, hu, add_smul]
        · rw [List.map_cons, List.sum_cons, h2, g3, hh, add_smul, smul_comm u, smul_smul, inv_mul_cancel₀ (Units.ne_zero _), one_smul]
    obtain ⟨t, h1, h2⟩ := hother o.others w1
    unfold verifyMultiSig at w2
    have hsum : (o.keys vk).foldl (fun acc v => acc + v.point) 0 = (x + t) • gen := by
      rw [keys_sum, h1, add_smul]; rfl
    rw [hsum, verifySignature_iff e _ _ _ gen _ hnd] at w2
    have hh : hashTo P (programmed (otherKeys vk.bytes) a (Sum.inl o.message) f ∘ Sum.inl) o.message.1 =
        (f (.inl o.message) : F) • (a : F) • P := by
      rw [hashTo_eq]
      simp only [Function.comp, programmed]
      rw [if_pos (by simp), Units.val_mul, smul_smul, mul_comm]
    unfold solveMulti
    rw [h2, w2, hh, smul_comm (x + t), smul_smul, inv_mul_cancel₀ (Units.ne_zero _), one_smul, add_smul, add_sub_cancel_right]

/-- A signature for one key is a multi-signature for that key alone, so `multisig_unforgeable` is about plain signatures too. -/
theorem multisig_of_one (e : K →ₗ[F] S →ₗ[F] GT) (sha : Bytes → S) (sig : Encoded S) (m : Bytes) (vk : Encoded K) (gen : K) :
    verifyMultiSig e sha sig m [vk] gen = verify e sha sig m vk gen := by
  simp [verifyMultiSig, verify]

namespace Agg

/-- What a forger outputs: message and context, the aggregated signature, and the other keys with their proofs of possession. -/
structure Forgery (K S : Type) (L : Nat) where
  message : Bytes
  context : Option Bytes
  sig : S
  others : List (K × S)
  position : Nat
  short : (context.getD MESSAGE_CONTEXT ++ message).length ≤ L

/-- what is hashed for the forgery -/
def Forgery.text {L : Nat} (o : Forgery K S L) : Query L := ⟨_, o.short⟩

/-- the keys the verifier is given -/
def Forgery.keys {L : Nat} (o : Forgery K S L) (pk : K) : List K :=
  (o.others.take o.position).map Prod.fst ++ pk :: (o.others.drop o.position).map Prod.fst

theorem keys_sum {L : Nat} (o : Forgery K S L) (pk : K) :
    (o.keys pk).foldl (fun a p => a + p) 0 = pk + (o.others.map Prod.fst).sum := by
  rw [foldl_add_sum (fun v : K => v), zero_add, List.map_id', Forgery.keys, List.sum_append, List.sum_cons]
  have : (o.others.map Prod.fst).sum = ((o.others.take o.position).map Prod.fst).sum + ((o.others.drop o.position).map Prod.fst).sum := by
    rw [← List.sum_append, ← List.map_append, List.take_append_drop]
  rw [this]
  abel

/-- what the reduction computes from the forgery and the exponents it has answered with -/
def solve {L : Nat} (enc : K → Bytes) (f : Query L → Fˣ) (o : Forgery K S L) : S :=
  ((f o.text : F)⁻¹) • o.sig - (o.others.map (fun p => ((expOf f (PUBLICKEY_CONTEXT ++ enc p.1) : F)⁻¹) • p.2)).sum

/-- the strings hashed for proofs of possession of other keys -/
def otherKeys {L : Nat} (own : Bytes) (d : Query L) : Bool := decide (PUBLICKEY_CONTEXT <+: d.1 ∧ d.1 ≠ PUBLICKEY_CONTEXT ++ own)

/-- **C200** (libursa/src/signatures/bls.rs) The same for the other implementation and `verify_no_rk` with proofs of possession under the default context.  The
forger may have anything signed under any context — a signature on `m` under `c` is one on `c ‖ m` under the empty context — but strings
that begin with the context for keys, except for the proof of possession of the attacked key. -/
theorem aggregate_unforgeable (e : K →ₗ[F] S →ₗ[F] GT) (g : K) (hnd : NonDeg e g) (hgen : ∀ k : K, ∃ t : F, k = t • g)
    (cK : Codec K) (P : S) (x : F) (L : Nat) (hL : PUBLICKEY_CONTEXT.length + cK.size ≤ L)
    (A : R → K → Forger (Query L) S (Forgery K S L)) (q : Nat) (hq : ∀ ρ pk, (A ρ pk).AtMost q) :
    let pk : K := publicKey x g
    let wins (ρ : R) (h : Query L → Fˣ) : Prop :=
      let hash := hashTo P h
      let hashes : Query L → S := fun d => hash d.1
      let signer : Query L → S := fun d => sigNew hash d.1 (some []) x
      let o := (A ρ pk).run hashes signer
      let signed := (A ρ pk).signed hashes signer
      (∀ p ∈ o.others, p.1 ≠ pk ∧ popVerify e hash cK.enc p.2 none p.1 g = true) ∧
      verifyNoRk e hash o.sig o.message o.context (o.keys pk) g = true ∧
      o.text ∉ signed ∧ ∀ d ∈ signed, PUBLICKEY_CONTEXT <+: d.1 → d.1 = PUBLICKEY_CONTEXT ++ cK.enc pk
    (pr fun ω : R × (Query L → Fˣ) => wins ω.1 ω.2) / (q + 1) ≤
      pr fun ω : Fin (q + 1) × R × Fˣ × (Query L → Fˣ) =>
        (simulate P (x • P) ((ω.2.2.1 : F) • P) (otherKeys (cK.enc pk)) ω.2.2.2 ω.1 [] (A ω.2.1 pk)).map (solve cK.enc ω.2.2.2) =
          some (x • (ω.2.2.1 : F) • P) := by
  intro pk wins
  let win : (Query L → Fˣ) → Forgery K S L → Prop := fun h o =>
    (∀ p ∈ o.others, p.1 ≠ pk ∧ popVerify e (hashTo P h) cK.enc p.2 none p.1 g = true) ∧
    verifyNoRk e (hashTo P h) o.sig o.message o.context (o.keys pk) g = true
  have hhash : ∀ h : Query L → Fˣ, (fun d : Query L => hashTo P h d.1) = fun d => (h d : F) • P := by
    intro h; funext d; exact hashTo_eq P h d
  have hsigner : ∀ h : Query L → Fˣ, (fun d : Query L => sigNew (hashTo P h) d.1 (some []) x) = fun d => x • (h d : F) • P := by
    intro h; funext d
    simp only [sigNew, hashMsg, hashToPoint, Option.getD_some, List.nil_append, hashTo_eq]
  have key := reduction P x (otherKeys (cK.enc pk)) (fun ρ => A ρ pk) q (fun ρ => hq ρ pk) (fun o => o.text) win (solve cK.enc) ?_
  · refine le_trans (div_le_div_of_nonneg_right (pr_mono ?_) (by positivity)) key
    rintro ⟨ρ, h⟩ hw
    simp only [wins, hhash, hsigner] at hw
    obtain ⟨w1, w2, w3, w4⟩ := hw
    refine ⟨⟨w1, w2⟩, fun d hd => ⟨fun he => w3 (he ▸ hd), ?_⟩⟩
    simp only [otherKeys, decide_eq_false_iff_not]
    exact fun hc => hc.2 (w4 d hd hc.1)
  · intro a f o hw
    obtain ⟨w1, w2⟩ := hw
    have hother : ∀ l : List (K × S), (∀ p ∈ l, p.1 ≠ pk ∧
        popVerify e (hashTo P (programmed (otherKeys (cK.enc pk)) a o.text f)) cK.enc p.2 none p.1 g = true) →
        ∃ t : F, (l.map Prod.fst).sum = t • g ∧
          (l.map (fun p => ((expOf f (PUBLICKEY_CONTEXT ++ cK.enc p.1) : F)⁻¹) • p.2)).sum = t • (a : F) • P := by
      intro l
      induction l with
      | nil => intro _; exact ⟨0, by simp, by simp⟩
      | cons p l ih =>
        intro hl
        obtain ⟨t, h1, h2⟩ := ih (fun p' hp' => hl p' (by simp [hp']))
        obtain ⟨g2, g3⟩ := hl p (by simp)
        obtain ⟨u, hu⟩ := hgen p.1
        have hlen : (PUBLICKEY_CONTEXT ++ cK.enc p.1).length ≤ L := by
          rw [List.length_append, cK.enc_length]; exact hL
        have hpu : p.1 = publicKey u g := hu
        have hh : hashTo P (programmed (otherKeys (cK.enc pk)) a o.text f) (PUBLICKEY_CONTEXT ++ cK.enc p.1) =
            (expOf f (PUBLICKEY_CONTEXT ++ cK.enc p.1) : F) • (a : F) • P := by
          rw [hashTo_eq P _ ⟨_, hlen⟩, expOf_eq _ _ hlen]
          simp only [programmed]
          rw [if_pos, Units.val_mul, smul_smul, mul_comm]
          refine Or.inl ?_
          simp only [otherKeys, decide_eq_true_iff]
          exact ⟨List.prefix_append _ _, fun he => g2 (cK.enc_injective (List.append_cancel_left he))⟩
        rw [hpu, agg_pop_accept_iff e _ _ _ _ _ _ hnd, ← hpu] at g3
        simp only [Option.getD_none] at g3
        refine ⟨u + t, ?_, ?_⟩
        · rw [List.map_cons, List.sum_cons, h1, hu, add_smul]
        · rw [List.map_cons, List.sum_cons, h2, g3, hh, add_smul, smul_comm u, smul_smul, inv_mul_cancel₀ (Units.ne_zero _), one_smul]
    obtain ⟨t, h1, h2⟩ := hother o.others w1
    unfold verifyNoRk at w2
    have hsum : (o.keys pk).foldl (fun a p => a + p) 0 = (x + t) • g := by
      rw [keys_sum, h1, add_smul]; rfl
    rw [hsum, ate2_iff e g _ _ _ hnd] at w2
    have hh : hashMsg (hashTo P (programmed (otherKeys (cK.enc pk)) a o.text f)) o.message o.context = (f o.text : F) • (a : F) • P := by
      show hashTo P _ o.text.1 = _
      rw [hashTo_eq]
      simp only [programmed]
      rw [if_pos (by simp), Units.val_mul, smul_smul, mul_comm]
    unfold solve
    rw [h2, w2, hh, smul_comm (x + t), smul_smul, inv_mul_cancel₀ (Units.ne_zero _), one_smul, add_smul, add_sub_cancel_right]

/-- what the forger of `aggregate_unforgeable` asks its signer for covers signatures and proofs of possession under every context -/
theorem signer_covers (hash : Bytes → S) (enc : K → Bytes) (m : Bytes) (ctx : Option Bytes) (x : F) (pk : K) :
    sigNew hash m ctx x = sigNew hash (ctx.getD MESSAGE_CONTEXT ++ m) (some []) x ∧
    popNew hash enc pk ctx x = sigNew hash (ctx.getD PUBLICKEY_CONTEXT ++ enc pk) (some []) x := by
  simp [sigNew, popNew, hashMsg, hashKey, hashToPoint]

end Agg

/-! ## The hypotheses are met: whoever has the key always wins -/

/-- asks for the hash value of the message and signs for itself and for one other signer with secret key `y` -/
def insider (cK : PointCodec K) (cS : PointCodec S) (gen : K) (x y : F) (L : Nat) (hL : cK.size ≤ L) (m : Query L) :
    Forger (Query L ⊕ Query L) S (MultiForgery K S L) :=
  .hash (.inl m) (fun H => .hash (.inr ⟨(verKeyNew cK gen y).bytes, by rw [verKeyNew, cK.enc_length]; exact hL⟩)
    (fun H' => .out ⟨m, ⟨(x + y) • H, []⟩, [(verKeyNew cK gen y, ⟨y • H', []⟩)], 0⟩))

theorem insider_bound (e : K →ₗ[F] S →ₗ[F] GT) (gen : K) (hnd : NonDeg e gen) (hgen : ∀ k : K, ∃ t : F, k = t • gen)
    (cK : PointCodec K) (cS : PointCodec S) (P : S) (x y : F) (hxy : x • gen ≠ y • gen) (L : Nat) (hL : cK.size ≤ L) (m : Query L) :
    1 / 3 ≤ pr fun ω : Fin 3 × Unit × Fˣ × (Query L ⊕ Query L → Fˣ) =>
        (simulate P (x • P) ((ω.2.2.1 : F) • P) (otherKeys (verKeyNew cK gen x).bytes) ω.2.2.2 ω.1 []
          (insider cK cS gen x y L hL m)).map (solveMulti ω.2.2.2) = some (x • (ω.2.2.1 : F) • P) := by
  have h := multisig_unforgeable (R := Unit) e gen hnd hgen cK cS P x L hL (fun _ _ => insider cK cS gen x y L hL m) 2
    (fun _ _ => fun _ _ => trivial)
  dsimp only at h
  rw [pr_one] at h
  · refine le_trans (le_of_eq ?_) h
    norm_num
  · rintro ⟨-, h⟩
    have hb : (verKeyNew cK gen y).bytes.length ≤ L := by rw [verKeyNew, cK.enc_length]; exact hL
    have hne : (verKeyNew cK gen y).bytes ≠ (verKeyNew cK gen x).bytes := by
      intro he
      have := congrArg cK.dec he
      simp only [verKeyNew, cK.dec_enc] at this
      exact hxy this.symm
    dsimp only
    refine ⟨?_, ?_, by simp [insider, Forger.signed], by simp [insider, Forger.signed]⟩
    · intro p hp
      simp only [insider, Forger.run, List.mem_singleton] at hp
      subst hp
      refine ⟨?_, hne, ?_⟩
      · simp [verKeyNew, Encoded.fromBytes, PointCodec.parse, cK.enc_length, cK.dec_enc]
      · unfold verifyPop
        exact (verifySignature_iff e _ _ _ gen y hnd).2 rfl
    · unfold verifyMultiSig
      rw [keys_sum]
      simp only [insider, Forger.run, List.map_cons, List.map_nil, List.sum_cons, List.sum_nil, add_zero]
      have : (verKeyNew cK gen x).point + (verKeyNew cK gen y).point = (x + y) • gen := by simp [verKeyNew, add_smul]
      rw [this]
      exact (verifySignature_iff e _ _ _ gen (x + y) hnd).2 rfl
end

namespace Toy
open Verif.Toy
local instance : Fact (Nat.Prime 101) := fact101
def codec : PointCodec T := ⟨1, codec101.enc, fun b => match codec101.dec b with | some p => p | none => 0, codec101.enc_length,
  fun p => by rw [codec101.dec_enc]⟩
theorem nondeg : NonDeg e (3 : T) := by
  intro s hs
  have : (3 : T) * s = 0 := hs
  rcases mul_eq_zero.1 this with h | h
  · exact absurd h (by decide +kernel)
  · exact h
theorem generates (k : T) : ∃ t : T, k = t • (3 : T) := ⟨k * 34, by
  have : (34 : T) * 3 = 1 := by decide +kernel
  rw [smul_eq_mul, mul_assoc, this, mul_one]⟩
example := insider_bound e (3 : T) nondeg generates codec codec 5 7 9 (by decide +kernel) 4 (by decide) ⟨[1, 2], by decide⟩
end Toy
end Verif.BLS
