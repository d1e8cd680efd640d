import Verif.BLS.Model
import Mathlib.Tactic.Module
import Mathlib.Tactic.LinearCombination
import Mathlib.Tactic.Linarith
import Verif.Toy
/-!
# Properties of the BLS signatures (C32-C35, C65-C70)

The only assumption on the pairing is that the generator is non-degenerate: `∀ s, e gen s = 0 → s = 0` (true for any
generator of a group of prime order with a non-degenerate pairing).
-/
set_option linter.unusedSectionVars false
namespace Verif.BLS

section
variable {F K S GT : Type} [Field F] [AddCommGroup K] [Module F K] [AddCommGroup S] [Module F S]
  [AddCommGroup GT] [Module F GT] [DecidableEq GT]

/-- specification: the pairing is non-degenerate at the generator -/
def NonDeg (e : K →ₗ[F] S →ₗ[F] GT) (gen : K) : Prop := ∀ s, e gen s = 0 → s = 0

theorem foldl_add_sum {G A : Type} [AddCommGroup G] (f : A → G) (l : List A) (a : G) :
    l.foldl (fun acc x => acc + f x) a = a + (l.map f).sum := by
  induction l generalizing a with
  | nil => simp
  | cons x l ih => rw [List.foldl_cons, ih]; simp [add_assoc]

theorem verifySignature_iff (e : K →ₗ[F] S →ₗ[F] GT) (hash : Bytes → S) (sig : S) (m : Bytes) (gen : K) (sk : F)
    (hnd : NonDeg e gen) : verifySignature e hash sig m (sk • gen) gen = true ↔ sig = sk • hash m := by
  unfold verifySignature
  rw [decide_eq_true_iff]
  have : e (-gen) sig + e (sk • gen) (hash m) = e gen (sk • hash m - sig) := by
    simp only [map_neg, LinearMap.neg_apply, map_smul, LinearMap.smul_apply, map_sub]
    module
  rw [this]
  constructor
  · intro h
    have := hnd _ h
    rw [sub_eq_zero] at this
    exact this.symm
  · rintro rfl
    simp

/-- **C32** a signature is accepted for the key of `sk` exactly if it is the one point `sk · H(m)`. -/
theorem bls_accept_iff (e : K →ₗ[F] S →ₗ[F] GT) (c : PointCodec K) (sha : Bytes → S) (sig : Encoded S) (m : Bytes) (gen : K)
    (sk : F) (hnd : NonDeg e gen) :
    verify e sha sig m (verKeyNew c gen sk) gen = true ↔ sig.point = sk • sha m :=
  verifySignature_iff e sha sig.point m gen sk hnd

/-- **C32** honest signatures are accepted (no assumption on the pairing), also after a trip of key and signature through
their byte forms. -/
theorem bls_honest_accepted (e : K →ₗ[F] S →ₗ[F] GT) (c : PointCodec K) (cs : PointCodec S) (sha : Bytes → S) (m : Bytes)
    (gen : K) (sk : F) :
    verify e sha (sign cs sha m sk) m (verKeyNew c gen sk) gen = true ∧
      ∃ vk sig, Encoded.fromBytes c (verKeyNew c gen sk).bytes = .ok vk ∧
        Encoded.fromBytes cs (sign cs sha m sk).bytes = .ok sig ∧
        verify e sha sig m vk gen = true := by
  have h : verify e sha (sign cs sha m sk) m (verKeyNew c gen sk) gen = true := by
    simp only [verify, verifySignature, verKeyNew, sign, genSignature, decide_eq_true_iff, map_neg, LinearMap.neg_apply,
      map_smul, LinearMap.smul_apply]
    module
  refine ⟨h, verKeyNew c gen sk, sign cs sha m sk, ?_, ?_, h⟩
  · simp [Encoded.fromBytes, PointCodec.parse, verKeyNew, c.enc_length, c.dec_enc]
  · simp [Encoded.fromBytes, PointCodec.parse, sign, cs.enc_length, cs.dec_enc]

/-- bytes of any other length are refused -/
theorem bls_parse_length {G : Type} (c : PointCodec G) (b : Bytes) :
    (∃ x, Encoded.fromBytes c b = .ok x ∧ x.bytes = b) ↔ b.length = c.size := by
  unfold Encoded.fromBytes PointCodec.parse
  by_cases h : b.length = c.size <;> simp [h]

/-- specification: keys and signatures of a list of signers of one message -/
def Signers.keys (c : PointCodec K) (gen : K) (sks : List F) : List (Encoded K) := sks.map (verKeyNew c gen)
/-- specification, see `Signers.keys` -/
def Signers.sigs (cs : PointCodec S) (sha : Bytes → S) (m : Bytes) (sks : List F) : List (Encoded S) := sks.map (sign cs sha m)

theorem sum_smul_const {M : Type} [AddCommGroup M] [Module F M] (l : List F) (x : M) :
    (l.map (fun a => a • x)).sum = l.sum • x := by
  induction l with
  | nil => simp
  | cons a l ih => simp [ih, add_smul]

theorem multiSig_point (cs : PointCodec S) (sigs : List (Encoded S)) :
    (multiSigNew cs sigs).point = (sigs.map (·.point)).sum := by
  unfold multiSigNew
  simp only [foldl_add_sum (fun s : Encoded S => s.point), zero_add]

/-- **C33** a multi-signature is accepted for the keys of a list of signers exactly if its point is `(Σ sk) · H(m)`. -/
theorem bls_multisig_accept_iff (e : K →ₗ[F] S →ₗ[F] GT) (c : PointCodec K) (sha : Bytes → S) (ms : Encoded S) (m : Bytes)
    (gen : K) (sks : List F) (hnd : NonDeg e gen) :
    verifyMultiSig e sha ms m (Signers.keys c gen sks) gen = true ↔ ms.point = sks.sum • sha m := by
  unfold verifyMultiSig
  rw [foldl_add_sum (fun vk : Encoded K => vk.point), zero_add]
  have : ((Signers.keys c gen sks).map (·.point)).sum = sks.sum • gen := by
    rw [← sum_smul_const]
    simp [Signers.keys, Function.comp_def, verKeyNew]
  rw [this]
  exact verifySignature_iff e sha ms.point m gen sks.sum hnd

/-- **C33** combining the signatures of one message by any list of signers, in any order, gives a multi-signature accepted
for their keys. -/
theorem bls_multisig_honest (e : K →ₗ[F] S →ₗ[F] GT) (c : PointCodec K) (cs : PointCodec S) (sha : Bytes → S) (m : Bytes)
    (gen : K) (sks sks' : List F) (hp : sks'.Perm sks) :
    verifyMultiSig e sha (multiSigNew cs (Signers.sigs cs sha m sks')) m (Signers.keys c gen sks) gen = true := by
  have h1 : ((Signers.keys c gen sks).map (·.point)).sum = sks.sum • gen := by
    rw [← sum_smul_const]; simp [Signers.keys, Function.comp_def, verKeyNew]
  have h2 : ((Signers.sigs cs sha m sks').map (·.point)).sum = sks.sum • sha m := by
    rw [← hp.sum_eq, ← sum_smul_const]; simp [Signers.sigs, Function.comp_def, sign, genSignature]
  unfold verifyMultiSig verifySignature
  rw [foldl_add_sum (fun vk : Encoded K => vk.point), zero_add, multiSig_point, h1, h2, decide_eq_true_iff]
  simp only [map_neg, LinearMap.neg_apply, map_smul, LinearMap.smul_apply]
  module

/-- **C33** replacing one of the combined signatures by any other point makes the result rejected. -/
theorem bls_multisig_one_bad (e : K →ₗ[F] S →ₗ[F] GT) (c : PointCodec K) (cs : PointCodec S) (sha : Bytes → S) (m : Bytes)
    (gen : K) (sks1 sks2 : List F) (sk : F) (bad : Encoded S) (hnd : NonDeg e gen) (hbad : bad.point ≠ sk • sha m) :
    verifyMultiSig e sha (multiSigNew cs (Signers.sigs cs sha m sks1 ++ bad :: Signers.sigs cs sha m sks2)) m
      (Signers.keys c gen (sks1 ++ sk :: sks2)) gen = false := by
  rw [Bool.eq_false_iff, ne_eq, bls_multisig_accept_iff e c sha _ m gen _ hnd, multiSig_point]
  have h : ∀ l : List F, ((Signers.sigs cs sha m l).map (·.point)).sum = l.sum • sha m := by
    intro l; rw [← sum_smul_const]; simp [Signers.sigs, Function.comp_def, sign, genSignature]
  intro hcon
  simp only [List.map_append, List.map_cons, List.sum_append, List.sum_cons, h] at hcon
  apply hbad
  linear_combination (norm := module) hcon

/-- **C34 is violated**: with no signer at all, the empty multi-signature is accepted for every message. -/
theorem bls_multisig_empty_accepted (e : K →ₗ[F] S →ₗ[F] GT) (cs : PointCodec S) (sha : Bytes → S) (m : Bytes) (gen : K) :
    verifyMultiSig e sha (multiSigNew cs []) m [] gen = true := by
  simp [verifyMultiSig, verifySignature, multiSigNew]

/-- **C34**, what does hold: for no signers only the point at infinity is accepted. -/
theorem bls_multisig_empty_iff (e : K →ₗ[F] S →ₗ[F] GT) (sha : Bytes → S) (ms : Encoded S) (m : Bytes) (gen : K)
    (hnd : NonDeg e gen) : verifyMultiSig e sha ms m [] gen = true ↔ ms.point = 0 := by
  have h := verifySignature_iff e sha ms.point m gen (0 : F) hnd
  simpa [verifyMultiSig] using h

/-- **C35** a proof of possession is accepted for the key of `sk` exactly if it is `sk · H'(bytes of the key)`. -/
theorem bls_pop_accept_iff (e : K →ₗ[F] S →ₗ[F] GT) (c : PointCodec K) (keccak : Bytes → S) (pop : Encoded S) (gen : K) (sk : F)
    (hnd : NonDeg e gen) :
    verifyPop e keccak pop (verKeyNew c gen sk) gen = true ↔ pop.point = sk • keccak (c.enc (sk • gen)) :=
  verifySignature_iff e keccak pop.point _ gen sk hnd

/-- **C35** the proof made by the owner of the key is accepted. -/
theorem bls_pop_honest (e : K →ₗ[F] S →ₗ[F] GT) (c : PointCodec K) (cs : PointCodec S) (keccak : Bytes → S) (gen : K) (sk : F) :
    verifyPop e keccak (popNew cs keccak (verKeyNew c gen sk) sk) (verKeyNew c gen sk) gen = true := by
  simp only [verifyPop, verifySignature, verKeyNew, popNew, genSignature, decide_eq_true_iff, map_neg, LinearMap.neg_apply,
      map_smul, LinearMap.smul_apply]
  module

/-! ### C67 rogue keys -/

/-- **C67 is violated**: for every list of keys of other people, whatever they are, and every message, somebody who knows
none of their secrets can publish one more key and a multi-signature accepted for all the keys together. -/
theorem bls_rogue_key_accepted (e : K →ₗ[F] S →ₗ[F] GT) (c : PointCodec K) (cs : PointCodec S) (sha : Bytes → S) (m : Bytes)
    (gen : K) (victims : List (Encoded K)) (t : F) :
    let rogue : K := t • gen - (victims.map (·.point)).sum
    verifyMultiSig e sha (sign cs sha m t) m (victims ++ [⟨rogue, c.enc rogue⟩]) gen = true := by
  intro rogue
  unfold verifyMultiSig verifySignature
  rw [foldl_add_sum (fun vk : Encoded K => vk.point), zero_add, decide_eq_true_iff]
  have : ((victims ++ [(⟨rogue, c.enc rogue⟩ : Encoded K)]).map (fun x : Encoded K => x.point)).sum = t • gen := by
    simp [rogue]
  rw [this]
  simp only [sign, genSignature, map_neg, LinearMap.neg_apply, map_smul, LinearMap.smul_apply]
  module

/-- **C67**, what protects: a proof of possession for the rogue key against one victim with secret `sk` is accepted only
if it is `(t - sk) · H'(rogue key)`, that is, from it and `t` one can read off `sk · H'(rogue key)`, a signature of the
victim. -/
theorem bls_rogue_pop (e : K →ₗ[F] S →ₗ[F] GT) (c : PointCodec K) (keccak : Bytes → S) (pop : Encoded S) (gen : K) (sk t : F)
    (hnd : NonDeg e gen)
    (h : verifyPop e keccak pop ⟨t • gen - sk • gen, c.enc (t • gen - sk • gen)⟩ gen = true) :
    t • keccak (c.enc (t • gen - sk • gen)) - pop.point = sk • keccak (c.enc (t • gen - sk • gen)) := by
  rw [← sub_smul] at h ⊢
  have := (bls_pop_accept_iff e c keccak pop gen (t - sk) hnd).1 h
  rw [this]
  module

end

namespace Agg
section
variable {F K S GT : Type} [Field F] [AddCommGroup K] [Module F K] [AddCommGroup S] [Module F S]
  [AddCommGroup GT] [Module F GT] [DecidableEq GT]

theorem ate2_iff (e : K →ₗ[F] S →ₗ[F] GT) (g : K) (sig : S) (sk : F) (h : S) (hnd : NonDeg e g) :
    ate2 e g sig (sk • g) h = true ↔ sig = sk • h :=
  verifySignature_iff e (fun _ => h) sig [] g sk hnd

theorem ate2_honest (e : K →ₗ[F] S →ₗ[F] GT) (g : K) (sk : F) (h : S) : ate2 e g (sk • h) (sk • g) h = true := by
  simp only [ate2, decide_eq_true_iff, map_neg, LinearMap.neg_apply, map_smul, LinearMap.smul_apply]
  module

/-- **C65** single signatures: accepted exactly if equal to `sk · H(context ‖ message)`. -/
theorem agg_sig_accept_iff (e : K →ₗ[F] S →ₗ[F] GT) (hash : Bytes → S) (sig : S) (m : Bytes) (ctx : Option Bytes) (g : K) (sk : F)
    (hnd : NonDeg e g) :
    sigVerify e hash sig m ctx (publicKey sk g) g = true ↔ sig = sk • hash (ctx.getD MESSAGE_CONTEXT ++ m) :=
  ate2_iff e g sig sk _ hnd

theorem agg_sig_honest (e : K →ₗ[F] S →ₗ[F] GT) (hash : Bytes → S) (m : Bytes) (ctx : Option Bytes) (g : K) (sk : F) :
    sigVerify e hash (sigNew hash m ctx sk) m ctx (publicKey sk g) g = true := ate2_honest e g sk _

/-- **C65** the byte-level interface: the key pair made from any parsable private key (or a seed) signs messages that its
public key verifies. -/
theorem scheme_sign_verify (e : K →ₗ[F] S →ₗ[F] GT) (cK : Codec K) (cS : Codec S) (cF : Codec F) (hkdf : Bytes → F)
    (hash : Bytes → S) (g : K) (rnd : F) (opt : Option KeyGen) (pk sk m : Bytes)
    (h : keypair cK.enc cF.enc cF.dec hkdf g rnd opt = .ok (pk, sk)) :
    ∃ sig, schemeSign cS.enc cF.dec hash m sk = .ok sig ∧ sig.length = cS.size ∧
      schemeVerify e cS.dec cK.dec hash g m sig pk = .ok true := by
  have key : ∃ k : F, pk = cK.enc (publicKey k g) ∧ sk = cF.enc k := by
    match opt, h with
    | none, h => simp only [keypair, Res.ok.injEq, Prod.mk.injEq] at h; exact ⟨_, h.1.symm, h.2.symm⟩
    | some (.useSeed s), h => simp only [keypair, Res.ok.injEq, Prod.mk.injEq] at h; exact ⟨_, h.1.symm, h.2.symm⟩
    | some (.fromSecretKey s), h =>
      simp only [keypair] at h
      rcases hd : cF.dec s with _ | k
      · simp [hd] at h
      · simp [hd] at h; exact ⟨k, h.1.symm, h.2.symm⟩
  obtain ⟨k, rfl, rfl⟩ := key
  refine ⟨cS.enc (sigNew hash m none k), by simp [schemeSign, cF.dec_enc], cS.enc_length _, ?_⟩
  simp [schemeVerify, cS.dec_enc, cK.dec_enc, agg_sig_honest]

/-- **C65** the byte-level `verify` answers true exactly for the encoding of `sk · H(context ‖ message)` (up to other encodings of
that point that `parseS` accepts), and with an error exactly if the signature or the key does not parse. -/
theorem scheme_verify_iff (e : K →ₗ[F] S →ₗ[F] GT) (cK : Codec K) (parseS : Bytes → Option S) (hash : Bytes → S) (g : K) (sk : F)
    (m sig : Bytes) (hnd : NonDeg e g) :
    (schemeVerify e parseS cK.dec hash g m sig (cK.enc (sk • g)) = .ok true ↔
      parseS sig = some (sk • hash (MESSAGE_CONTEXT ++ m))) ∧
    (∀ pk, (∃ err, schemeVerify e parseS cK.dec hash g m sig pk = .err err) ↔ parseS sig = none ∨ cK.dec pk = none) := by
  constructor
  · unfold schemeVerify
    rw [cK.dec_enc]
    cases hs : parseS sig with
    | none => simp
    | some s =>
      simp only [Res.ofOption_some, Res.ok_bind, Res.pure_eq, Res.ok.injEq, Option.some.injEq]
      exact agg_sig_accept_iff e hash s m none g sk hnd
  · intro pk
    unfold schemeVerify
    cases parseS sig <;> cases cK.dec pk <;> simp

/-- **C65** what `combine` computes: the sum of all keys (or signatures), the receiver included -/
theorem combine_sum {G : Type} [AddCommGroup G] (a : G) : ∀ l : List G, combine a l = (a :: l).sum := by
  intro l
  unfold combine
  rw [List.sum_cons]
  induction l generalizing a with
  | nil => simp
  | cons b l ih => rw [List.foldl_cons, ih, List.sum_cons, add_assoc]

/-- **C65** the combined signature of several signers of one message is accepted under their combined key, and is the only one -/
theorem combined_accept_iff (e : K →ₗ[F] S →ₗ[F] GT) (hash : Bytes → S) (m : Bytes) (ctx : Option Bytes) (g : K) (sk : F)
    (sks : List F) (sig : S) (hnd : NonDeg e g) :
    sigVerify e hash sig m ctx (combine (publicKey sk g) (sks.map (publicKey · g))) g = true ↔
      sig = combine (sigNew hash m ctx sk) (sks.map (sigNew hash m ctx ·)) := by
  have hk : ∀ l : List F, (l.map (publicKey · g)).sum = l.sum • g := by
    intro l; induction l with
    | nil => simp
    | cons a l ih => rw [List.map_cons, List.sum_cons, ih, List.sum_cons, add_smul]; rfl
  have hs : ∀ l : List F, (l.map (sigNew hash m ctx ·)).sum = l.sum • hash (ctx.getD MESSAGE_CONTEXT ++ m) := by
    intro l; induction l with
    | nil => simp
    | cons a l ih => rw [List.map_cons, List.sum_cons, ih, List.sum_cons, add_smul]; rfl
  rw [combine_sum, combine_sum, ← List.map_cons (f := (publicKey · g)), ← List.map_cons (f := (sigNew hash m ctx ·)), hk, hs]
  exact agg_sig_accept_iff e hash sig m ctx g _ hnd

/-- **C65** the keys `keypair` returns: from a seed, the HKDF output for the seed followed by a zero byte; from a private key, that
key; otherwise the random one.  The only error is a private key that does not parse. -/
theorem keypair_values (cK : Codec K) (cF : Codec F) (hkdf : Bytes → F) (g : K) (rnd : F) (b : Bytes) :
    keypair cK.enc cF.enc cF.dec hkdf g rnd (some (.useSeed b)) =
      .ok (cK.enc (hkdf (b ++ [0]) • g), cF.enc (hkdf (b ++ [0]))) ∧
    (∀ k, cF.dec b = some k → keypair cK.enc cF.enc cF.dec hkdf g rnd (some (.fromSecretKey b)) = .ok (cK.enc (k • g), cF.enc k)) ∧
    (cF.dec b = none → ∃ err, keypair cK.enc cF.enc cF.dec hkdf g rnd (some (.fromSecretKey b)) = .err err) ∧
    keypair cK.enc cF.enc cF.dec hkdf g rnd none = .ok (cK.enc (rnd • g), cF.enc rnd) := by
  refine ⟨rfl, fun k h => by simp [keypair, h, publicKey], fun h => by simp [keypair, h], rfl⟩

/-- **C65** a key pair is determined by its seed, and re-deriving it from the returned secret key gives it back. -/
theorem keypair_from_secret (cK : Codec K) (cF : Codec F) (hkdf : Bytes → F) (g : K) (rnd rnd' : F) (opt : Option KeyGen)
    (pk sk : Bytes) (h : keypair cK.enc cF.enc cF.dec hkdf g rnd opt = .ok (pk, sk)) :
    keypair cK.enc cF.enc cF.dec hkdf g rnd' (some (.fromSecretKey sk)) = .ok (pk, sk) := by
  have key : ∃ k : F, pk = cK.enc (publicKey k g) ∧ sk = cF.enc k := by
    match opt, h with
    | none, h => simp only [keypair, Res.ok.injEq, Prod.mk.injEq] at h; exact ⟨_, h.1.symm, h.2.symm⟩
    | some (.useSeed s), h => simp only [keypair, Res.ok.injEq, Prod.mk.injEq] at h; exact ⟨_, h.1.symm, h.2.symm⟩
    | some (.fromSecretKey s), h =>
      simp only [keypair] at h
      rcases hd : cF.dec s with _ | k
      · simp [hd] at h
      · simp [hd] at h; exact ⟨k, h.1.symm, h.2.symm⟩
  obtain ⟨k, rfl, rfl⟩ := key
  simp [keypair, cF.dec_enc]

/-! ### C66 aggregation with rogue-key mitigation -/

theorem aggregatedKey_eq (hF : Bytes → F) (enc : K → Bytes) (g : K) (sks : List F) :
    aggregatedKey hF enc (sks.map (fun sk => publicKey sk g)) =
      (sks.map (fun sk => coeff hF enc (sks.map (fun sk => publicKey sk g)) (publicKey sk g) * sk)).sum • g := by
  unfold aggregatedKey
  rw [foldl_add_sum, zero_add, ← sum_smul_const, List.map_map, List.map_map]
  congr 1
  refine List.map_congr_left fun sk _ => ?_
  simp [publicKey, mul_smul]

/-- **C66** an aggregated signature is accepted for the aggregated key of a list of signers exactly if it is
`(Σ aᵢ skᵢ) · H(m)` where `aᵢ` is the coefficient of key `i`: the hash of all keys followed by key `i`. -/
theorem agg_accept_iff (e : K →ₗ[F] S →ₗ[F] GT) (hash : Bytes → S) (hF : Bytes → F) (enc : K → Bytes) (sig : S) (m : Bytes)
    (ctx : Option Bytes) (g : K) (sks : List F) (hnd : NonDeg e g) :
    let pks := sks.map (fun sk => publicKey sk g)
    sigVerify e hash sig m ctx (aggregatedKey hF enc pks) g = true ↔
      sig = (sks.map (fun sk => hF ((pks.map enc).flatten ++ enc (publicKey sk g)) * sk)).sum •
        hash (ctx.getD MESSAGE_CONTEXT ++ m) := by
  intro pks
  unfold sigVerify
  rw [aggregatedKey_eq]
  exact ate2_iff e g sig _ _ hnd

/-- **C66** when every signer of a list signs with the mitigation under his own position, all calls succeed and the sum
of the signatures is accepted for the aggregated key. -/
theorem agg_honest (e : K →ₗ[F] S →ₗ[F] GT) (hash : Bytes → S) (hF : Bytes → F) (enc : K → Bytes) (m : Bytes)
    (ctx : Option Bytes) (g : K) (sks : List F) :
    let pks := sks.map (fun sk => publicKey sk g)
    ∃ sigs : List S, sigs.length = sks.length ∧
      (∀ i (hi : i < sks.length), ∃ s, sigs[i]? = some s ∧ sigNewRk hash hF enc m ctx sks[i] i pks = .ok s) ∧
      sigVerify e hash (aggSigNew sigs) m ctx (aggregatedKey hF enc pks) g = true := by
  intro pks
  refine ⟨sks.map (fun sk => coeff hF enc pks (publicKey sk g) • sk • hashMsg hash m ctx), by simp, ?_, ?_⟩
  · intro i hi
    refine ⟨coeff hF enc pks (publicKey sks[i] g) • sks[i] • hashMsg hash m ctx, by simp [hi], ?_⟩
    unfold sigNewRk
    have : pks[i]? = some (publicKey sks[i] g) := by simp [pks, hi]
    rw [this]; rfl
  · unfold sigVerify aggSigNew
    rw [aggregatedKey_eq, foldl_add_sum (fun s : S => s), zero_add, List.map_id']
    have : (sks.map (fun sk => coeff hF enc pks (publicKey sk g) • sk • hashMsg hash m ctx)).sum =
        (sks.map (fun sk => coeff hF enc pks (publicKey sk g) * sk)).sum • hashMsg hash m ctx := by
      rw [← sum_smul_const, List.map_map]
      congr 1
      refine List.map_congr_left fun sk _ => ?_
      simp [mul_smul]
    rw [this]
    exact ate2_honest e g _ _

/-- signing under a position outside the list panics -/
theorem sigNewRk_panics (hash : Bytes → S) (hF : Bytes → F) (enc : K → Bytes) (m : Bytes) (ctx : Option Bytes) (sk : F)
    (i : Nat) (pks : List K) (h : pks.length ≤ i) : sigNewRk hash hF enc m ctx sk i pks = .panic := by
  unfold sigNewRk; rw [List.getElem?_eq_none h]; rfl

/-- **C67 is violated** by the variant without mitigation as well … -/
theorem no_rk_rogue_key_accepted (e : K →ₗ[F] S →ₗ[F] GT) (hash : Bytes → S) (m : Bytes) (ctx : Option Bytes) (g : K)
    (victims : List K) (t : F) :
    verifyNoRk e hash (sigNew hash m ctx t) m ctx (victims ++ [publicKey t g - victims.sum]) g = true := by
  unfold verifyNoRk
  rw [foldl_add_sum (fun k : K => k), zero_add, List.map_id']
  have : (victims ++ [publicKey t g - victims.sum]).sum = t • g := by simp [publicKey]
  rw [this]
  exact ate2_honest e g t _

/-- `verify_no_rk` accepts exactly `(Σ sk) · H(m)`. -/
theorem no_rk_accept_iff (e : K →ₗ[F] S →ₗ[F] GT) (hash : Bytes → S) (sig : S) (m : Bytes) (ctx : Option Bytes) (g : K)
    (sks : List F) (hnd : NonDeg e g) :
    verifyNoRk e hash sig m ctx (sks.map (fun sk => publicKey sk g)) g = true ↔
      sig = sks.sum • hash (ctx.getD MESSAGE_CONTEXT ++ m) := by
  unfold verifyNoRk
  rw [foldl_add_sum (fun k : K => k), zero_add, List.map_id', show (sks.map (fun sk => publicKey sk g)).sum = sks.sum • g from
    sum_smul_const sks g]
  exact ate2_iff e g sig _ _ hnd

/-! ### C68 several messages -/

variable [DecidableEq S]

theorem multiPairs_eq (hash : Bytes → S) (ctx : Option Bytes) (inputs : List (Bytes × K)) (seen : List S) (acc : List (K × S)) :
    multiPairs hash ctx inputs seen acc =
      if (inputs.map (fun i => hashMsg hash i.1 ctx)).Nodup ∧ ∀ i ∈ inputs, hashMsg hash i.1 ctx ∉ seen then
        some (acc ++ inputs.map (fun i => (i.2, hashMsg hash i.1 ctx)))
      else none := by
  induction inputs generalizing seen acc with
  | nil => simp [multiPairs]
  | cons x rest ih =>
    obtain ⟨msg, pk⟩ := x
    unfold multiPairs
    by_cases h : hashMsg hash msg ctx ∈ seen
    · simp [h]
    · simp only [h, if_false, ih]
      simp only [List.append_assoc, List.singleton_append]
      refine if_congr ?_ rfl rfl
      rw [List.map_cons, List.nodup_cons]
      constructor
      · rintro ⟨h1, h2⟩
        refine ⟨⟨?_, h1⟩, ?_⟩
        · simp only [List.mem_map, not_exists, not_and]
          intro i hi heq
          exact (h2 i hi) (heq ▸ List.mem_cons_self)
        · intro i hi
          rcases List.mem_cons.1 hi with rfl | hi
          · exact h
          · exact fun hm => h2 i hi (List.mem_cons_of_mem _ hm)
      · rintro ⟨⟨h1, h2⟩, h3⟩
        refine ⟨h2, fun i hi => ?_⟩
        intro hm
        rcases List.mem_cons.1 hm with heq | hm
        · exact h1 (List.mem_map.2 ⟨i, hi, heq⟩)
        · exact h3 i (List.mem_cons_of_mem _ hi) hm

/-- **C68** `verify_multi` accepts exactly if the messages hash to pairwise different points and the signature is
`Σ skᵢ · H(mᵢ)`. -/
theorem verify_multi_iff (e : K →ₗ[F] S →ₗ[F] GT) (hash : Bytes → S) (sig : S) (signers : List (Bytes × F)) (ctx : Option Bytes)
    (g : K) (hnd : NonDeg e g) :
    verifyMulti e hash sig (signers.map (fun x => (x.1, publicKey x.2 g))) ctx g = true ↔
      (signers.map (fun x => hash (ctx.getD MESSAGE_CONTEXT ++ x.1))).Nodup ∧
        sig = (signers.map (fun x => x.2 • hash (ctx.getD MESSAGE_CONTEXT ++ x.1))).sum := by
  unfold verifyMulti
  rw [multiPairs_eq]
  have hmap : (List.map (fun i : Bytes × K => hashMsg hash i.1 ctx) (signers.map (fun x => (x.1, publicKey x.2 g)))) =
      signers.map (fun x => hash (ctx.getD MESSAGE_CONTEXT ++ x.1)) := by
    rw [List.map_map]; rfl
  rw [hmap]
  by_cases hnodup : (signers.map (fun x => hash (ctx.getD MESSAGE_CONTEXT ++ x.1))).Nodup
  · simp only [hnodup, List.not_mem_nil, not_false_eq_true, implies_true, and_self, if_true, List.nil_append, true_and]
    unfold ateMulti
    rw [decide_eq_true_iff, List.map_append, List.sum_append, List.map_map, List.map_map]
    have hs : (signers.map (((fun p : K × S => e p.1 p.2) ∘ fun i : Bytes × K => (i.2, hashMsg hash i.1 ctx)) ∘
        fun x => (x.1, publicKey x.2 g))).sum =
        e g ((signers.map (fun x => x.2 • hash (ctx.getD MESSAGE_CONTEXT ++ x.1))).sum) := by
      rw [map_list_sum, List.map_map]
      congr 1
      refine List.map_congr_left fun x _ => ?_
      simp [publicKey, hashMsg, hashToPoint]
    rw [hs]
    simp only [List.map_cons, List.map_nil, List.sum_cons, List.sum_nil, add_zero, map_neg, LinearMap.neg_apply]
    rw [← sub_eq_add_neg, ← map_sub]
    constructor
    · intro h
      exact (sub_eq_zero.1 (hnd _ h)).symm
    · rintro rfl; simp
  · simp [hnodup]

/-! ### C69 batch verification -/

theorem batchVerify_iff (e : K →ₗ[F] S →ₗ[F] GT) (hash : Bytes → S) (inputs : List (Bytes × S × K × F)) (ctx : Option Bytes)
    (g : K) :
    batchVerify e hash inputs ctx g = true ↔
      (inputs.map (fun i => i.2.2.2 • (e i.2.2.1 (hashMsg hash i.1 ctx) - e g i.2.1))).sum = 0 := by
  unfold batchVerify ateMulti
  rw [decide_eq_true_iff, foldl_add_sum (fun i : Bytes × S × K × F => i.2.2.2 • i.2.1), zero_add]
  rw [show ((inputs.map (fun i => (i.2.2.2 • i.2.2.1, hashMsg hash i.1 ctx)) ++
      [(-g, (inputs.map (fun i => i.2.2.2 • i.2.1)).sum)]).map (fun p : K × S => e p.1 p.2)).sum =
      (inputs.map (fun i => i.2.2.2 • (e i.2.2.1 (hashMsg hash i.1 ctx) - e g i.2.1))).sum from ?_]
  rw [List.map_append, List.sum_append, List.map_map]
  simp only [List.map_cons, List.map_nil, List.sum_cons, List.sum_nil, add_zero, map_neg, LinearMap.neg_apply]
  rw [map_list_sum, List.map_map]
  induction inputs with
  | nil => simp
  | cons x l ih =>
    simp only [List.map_cons, List.sum_cons, ← ih, Function.comp_apply, map_smul, LinearMap.smul_apply]
    module

/-- **C69** a batch of individually accepted signatures is accepted, whatever random exponents are drawn. -/
theorem batch_complete (e : K →ₗ[F] S →ₗ[F] GT) (hash : Bytes → S) (inputs : List (Bytes × S × K × F)) (ctx : Option Bytes)
    (g : K) (h : ∀ i ∈ inputs, sigVerify e hash i.2.1 i.1 ctx i.2.2.1 g = true) :
    batchVerify e hash inputs ctx g = true := by
  rw [batchVerify_iff]
  have : ∀ i ∈ inputs, i.2.2.2 • (e i.2.2.1 (hashMsg hash i.1 ctx) - e g i.2.1) = (0 : GT) := by
    intro i hi
    have := h i hi
    simp only [sigVerify, ate2, decide_eq_true_iff, map_neg, LinearMap.neg_apply] at this
    rw [show e i.2.2.1 (hashMsg hash i.1 ctx) - e g i.2.1 = 0 by rw [← this]; abel, smul_zero]
  rw [List.map_congr_left this]
  simp

/-- **C69** if some signature of the batch is not valid, then, whatever the other inputs and exponents are, there is at
most one value of its own random exponent for which the batch is accepted. -/
theorem batch_sound (e : K →ₗ[F] S →ₗ[F] GT) (hash : Bytes → S) (pre post : List (Bytes × S × K × F)) (m : Bytes) (sig : S) (pk : K)
    (r r' : F) (ctx : Option Bytes) (g : K) (hbad : sigVerify e hash sig m ctx pk g = false)
    (h : batchVerify e hash (pre ++ (m, sig, pk, r) :: post) ctx g = true)
    (h' : batchVerify e hash (pre ++ (m, sig, pk, r') :: post) ctx g = true) : r = r' := by
  rw [batchVerify_iff] at h h'
  simp only [List.map_append, List.map_cons, List.sum_append, List.sum_cons] at h h'
  set A := (pre.map (fun i : Bytes × S × K × F => i.2.2.2 • (e i.2.2.1 (hashMsg hash i.1 ctx) - e g i.2.1))).sum
  set B := (post.map (fun i : Bytes × S × K × F => i.2.2.2 • (e i.2.2.1 (hashMsg hash i.1 ctx) - e g i.2.1))).sum
  set D := e pk (hashMsg hash m ctx) - e g sig with hD
  have hz : (r - r') • D = 0 := by linear_combination (norm := module) h - h'
  by_contra hne
  have hD0 : D = 0 := (smul_eq_zero.1 hz).resolve_left (sub_ne_zero.2 hne)
  have : sigVerify e hash sig m ctx pk g = true := by
    simp only [sigVerify, ate2, decide_eq_true_iff, map_neg, LinearMap.neg_apply]
    rw [hD] at hD0
    rw [← hD0]; abel
  rw [this] at hbad
  cases hbad

/-- **C69** such a value may exist: two wrong signatures cancel under equal exponents, which is why the exponents must be
unpredictable. -/
theorem batch_equal_exponents_cancel (e : K →ₗ[F] S →ₗ[F] GT) (hash : Bytes → S) (m1 m2 : Bytes) (sk1 sk2 r : F) (d : S)
    (ctx : Option Bytes) (g : K) :
    batchVerify e hash [(m1, sigNew hash m1 ctx sk1 + d, publicKey sk1 g, r), (m2, sigNew hash m2 ctx sk2 - d, publicKey sk2 g, r)]
      ctx g = true := by
  rw [batchVerify_iff]
  simp [publicKey, sigNew]

/-! ### C70 domain separation -/

/-- **C70** message signatures and proofs of possession under the default contexts never hash the same bytes. -/
theorem default_contexts_disjoint (m k : Bytes) : MESSAGE_CONTEXT ++ m ≠ PUBLICKEY_CONTEXT ++ k := by
  intro h
  have := congrArg (fun l => l[12]?) h
  have e1 : (MESSAGE_CONTEXT ++ m)[12]? = MESSAGE_CONTEXT[12]? :=
    List.getElem?_append_left (by decide +kernel)
  have e2 : (PUBLICKEY_CONTEXT ++ k)[12]? = PUBLICKEY_CONTEXT[12]? :=
    List.getElem?_append_left (by decide +kernel)
  simp only [e1, e2] at this
  revert this
  decide +kernel

/-- **C70 is violated for chosen contexts**: the context is merely prepended, so a signature on `m` under the context `c`
is a signature on every `m'` under every `c'` with `c ‖ m = c' ‖ m'` … -/
theorem context_not_separated (e : K →ₗ[F] S →ₗ[F] GT) (hash : Bytes → S) (sig : S) (c x m : Bytes) (pk g : K) :
    sigVerify e hash sig (x ++ m) (some c) pk g = sigVerify e hash sig m (some (c ++ x)) pk g := by
  simp [sigVerify, hashMsg, hashToPoint]

/-- … and a proof of possession can be obtained as a message signature under another context. -/
theorem pop_from_message_signature (hash : Bytes → S) (enc : K → Bytes) (pk : K) (sk : F) :
    sigNew hash ("public keys for proof of possession".toUTF8.data.toList ++ enc pk) (some "for signing ".toUTF8.data.toList) sk =
      popNew hash enc pk none sk := by
  have : "for signing ".toUTF8.data.toList ++ "public keys for proof of possession".toUTF8.data.toList = PUBLICKEY_CONTEXT := by
    decide +kernel
  simp only [sigNew, popNew, hashMsg, hashKey, hashToPoint, Option.getD_some, Option.getD_none]
  rw [← List.append_assoc, this]

/-- **C35** proofs of possession of this implementation: accepted exactly if `sk · H(context ‖ key bytes)`. -/
theorem agg_pop_accept_iff (e : K →ₗ[F] S →ₗ[F] GT) (hash : Bytes → S) (enc : K → Bytes) (pop : S) (ctx : Option Bytes) (g : K)
    (sk : F) (hnd : NonDeg e g) :
    popVerify e hash enc pop ctx (publicKey sk g) g = true ↔
      pop = sk • hash (ctx.getD PUBLICKEY_CONTEXT ++ enc (publicKey sk g)) :=
  ate2_iff e g pop sk _ hnd

end
end Agg

/-! ### Non-vacuity: the pairing `(a,b) ↦ ab` on `ZMod 101` -/

namespace Toy
open Verif.Toy
abbrev T := ZMod 101
/-- toy pairing -/
abbrev e : T →ₗ[T] T →ₗ[T] T := toyE
/-- toy hash to the group -/
def h (b : Bytes) : T := (ofBe b : T) + 1

example : NonDeg e (3 : T) := by
  intro s hs
  have : (3 : T) * s = 0 := hs
  rcases mul_eq_zero.1 this with h | h
  · exact absurd h (by decide +kernel)
  · exact h

example : verifySignature e h (7 • h [1, 2]) [1, 2] (7 • 3) 3 = true := by decide +kernel
example : verifySignature e h (8 • h [1, 2]) [1, 2] (7 • 3) 3 = false := by decide +kernel
-- hypotheses of `bls_multisig_one_bad`, `batch_sound`: a wrong signature
example : Agg.sigVerify e h (8 • h [1, 2]) [1, 2] (some []) (7 • 3) 3 = false := by decide +kernel
-- hypothesis of `verify_multi_iff`: both outcomes of the distinctness test occur
example : Agg.verifyMulti e h (7 • h [1] + 9 • h [2]) [([1], 7 • 3), ([2], 9 • 3)] (some []) 3 = true := by decide +kernel
example : Agg.verifyMulti e h (7 • h [1] + 9 • h [1]) [([1], 7 • 3), ([1], 9 • 3)] (some []) 3 = false := by decide +kernel
-- hypotheses of `batch_sound` are met with `r = r'`: an invalid batch that is accepted for one unlucky exponent
example : Agg.batchVerify e h [([1], 8 • h [1], 7 • 3, 5), ([2], 9 • h [2] - h [1], 9 • 3, 5)] (some []) 3 = true ∧
    Agg.sigVerify e h (8 • h [1]) [1] (some []) (7 • 3) 3 = false := by decide +kernel
end Toy
end Verif.BLS
