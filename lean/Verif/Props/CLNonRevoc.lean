import Verif.CL.NonRevocProof
import Verif.Props.CLRevocation
import Verif.Toy
import Mathlib.Tactic.Abel
import Mathlib.Tactic.Module
import Mathlib.Tactic.FieldSimp
import Mathlib.Tactic.LinearCombination
/-!
# Properties of the non-revocation proof (C51)

Specification vocabulary: `Authentic` — the four pairing equations that say "this is a credential of the issuer, it is
issued in the registry with accumulator `acc`"; it does not mention the proof protocol.
-/
namespace Verif.CL.Rev

open Verif
set_option linter.unusedSectionVars false
set_option linter.unusedSimpArgs false

section
variable {F G1 G2 GT : Type} [Field F] [AddCommGroup G1] [Module F G1] [AddCommGroup G2] [Module F G2]
  [AddCommGroup GT] [Module F GT]

/-- `(sigma, c, vr, m2, gI, sigmaI, uI, omega)` is a valid revocation credential whose index is accumulated in `acc` -/
structure Authentic (e : G1 →ₗ[F] G2 →ₗ[F] GT) (pub : PubKey G1 G2) (z : GT) (acc : G2)
    (sigma : G1) (c vr m2 : F) (gI : G1) (sigmaI uI omega : G2) : Prop where
  /-- the index is in the accumulator -/
  member : e gI acc = e pub.g omega + z
  /-- the index is signed by the issuer -/
  index : e (pub.pk + gI) sigmaI = e pub.g pub.gDash
  /-- the credential ties the index to the context `m2` under the issuer's key -/
  cred : e sigma (pub.y + c • pub.hCap) = e (pub.h0 + m2 • pub.h1 + vr • pub.h2 + gI) pub.hCap
  /-- the index is certified in `G2` too -/
  link : e gI pub.u = e pub.g uI

/-- list order round trip used by the prover when it assembles its answers -/
theorem xlist_round_trip (x : XList F) : XList.fromList x.asList = .ok x := rfl

theorem fromList_short (l : List F) (h : l.length < 14) : XList.fromList l = .panic := by
  unfold XList.fromList
  have : l[13]? = none := by simp; omega
  rw [this]
  cases l[0]? <;> cases l[10]? <;> cases l[11]? <;> cases l[12]? <;> rfl

/-- a holder whose credential passes the witness test holds an authentic credential (given the extra link equation that
issuer-made credentials satisfy) -/
theorem authentic_of_test [DecidableEq GT] (e : G1 →ₗ[F] G2 →ₗ[F] GT) (pub : PubKey G1 G2) (z : GT) (acc : G2)
    (sig : NonRevSig F G1 G2) (omega : G2) (hw : sig.wgI = sig.gI)
    (ht : testWitnessSignature e sig pub z acc omega = .ok ()) (hl : e sig.gI pub.u = e pub.g sig.uI) :
    Authentic e pub z acc sig.sigma sig.c sig.vr sig.m2 sig.gI sig.sigmaI sig.uI omega := by
  unfold testWitnessSignature at ht
  split_ifs at ht with h1 h2 h3
  refine ⟨?_, not_not.mp h2, not_not.mp h3, hl⟩
  have := not_not.mp h1
  rw [hw] at this
  rw [← this]; abel

/-- conversely an authentic credential passes the holder's own witness test -/
theorem test_of_authentic [DecidableEq GT] (e : G1 →ₗ[F] G2 →ₗ[F] GT) (pub : PubKey G1 G2) (z : GT) (acc : G2)
    (sigma : G1) (c vr m2 : F) (gI : G1) (sigmaI uI omega : G2) (i : Nat)
    (h : Authentic e pub z acc sigma c vr m2 gI sigmaI uI omega) :
    testWitnessSignature e ⟨sigma, c, vr, sigmaI, uI, gI, gI, i, m2⟩ pub z acc omega = .ok () := by
  unfold testWitnessSignature
  have h1 := h.member
  rw [if_neg, if_neg, if_neg]
  · exact not_not.mpr h.cred
  · exact not_not.mpr h.index
  · simp only [not_not]; rw [h1]; abel

/-- **C51 (completeness)** For every authentic credential, every choice of the prover's randomness and every challenge,
the prover's answers make the verifier reconstruct exactly the commitments the prover hashed. -/
theorem nonrevoc_proof_complete (e : G1 →ₗ[F] G2 →ₗ[F] GT) (pub : PubKey G1 G2) (z : GT) (acc : G2)
    (sig : NonRevSig F G1 G2) (omega : G2)
    (h : Authentic e pub z acc sig.sigma sig.c sig.vr sig.m2 sig.gI sig.sigmaI sig.uI omega)
    (rho r r' r'' r''' o o' : F) (tau : XList F) (ch : F) :
    ∃ proof, finalizeNonRevocProof (initNonRevocProof e sig acc pub omega rho r r' r'' r''' o o' tau) ch = .ok proof ∧
      verifyNonRevocProof e pub acc z ch proof =
        (initNonRevocProof e sig acc pub omega rho r r' r'' r''' o o' tau).tauList := by
  refine ⟨_, rfl, ?_⟩
  have h1 := h.member
  have h2 := h.index
  have h3 := h.cred
  have h4 := h.link
  simp only [map_add, map_smul, LinearMap.add_apply, LinearMap.smul_apply] at h1 h2 h3 h4
  have h3' : e sig.sigma pub.y = e pub.h0 pub.hCap + sig.m2 • e pub.h1 pub.hCap + sig.vr • e pub.h2 pub.hCap
      + e sig.gI pub.hCap - sig.c • e sig.sigma pub.hCap := by rw [← h3]; abel
  have h2' : e pub.g pub.gDash = e pub.pk sig.sigmaI + e sig.gI sig.sigmaI := h2.symm
  ext <;> simp only [verifyNonRevocProof, tauExpected, tauValues, initNonRevocProof, genCListParams, createCListValues,
    map_add, map_smul, map_neg, LinearMap.add_apply, LinearMap.smul_apply, LinearMap.neg_apply]
  · module
  · module
  · rw [h3']; module
  · rw [h1]; module
  · module
  · module
  · rw [h2']; module
  · rw [h4]; module

/-- answers extracted from two transcripts with the same commitments -/
def extract (ch ch' : F) (x x' : XList F) : XList F :=
  let k := (ch - ch')⁻¹
  ⟨k * (x'.rho - x.rho), k * (x'.r - x.r), k * (x'.r' - x.r'), k * (x'.r'' - x.r''), k * (x'.r''' - x.r'''),
   k * (x'.o - x.o), k * (x'.o' - x.o'), k * (x'.m - x.m), k * (x'.m' - x.m'), k * (x'.t - x.t), k * (x'.t' - x.t'),
   k * (x'.m2 - x.m2), k * (x'.s - x.s), k * (x'.c - x.c)⟩

/-- **C51 (special soundness)** Two answers to different challenges for the same commitments, for which the verifier
reconstructs the same list, reveal an authentic credential: nobody can answer two challenges without holding one whose
index is in the accumulator.  The only assumption is that no non-trivial relation between `h` and `h~`, or between `g`
and `h~`, is known (the commitments `E` and `D` are then binding). -/
theorem nonrevoc_proof_sound (e : G1 →ₗ[F] G2 →ₗ[F] GT) (pub : PubKey G1 G2) (z : GT) (acc : G2)
    (cl : CList G1 G2) (ch ch' : F) (hne : ch ≠ ch') (x x' : XList F)
    (heq : verifyNonRevocProof e pub acc z ch (x, cl) = verifyNonRevocProof e pub acc z ch' (x', cl))
    (hbind : ∀ a b : F, a • pub.h + b • pub.htilde = 0 → a = 0 ∧ b = 0)
    (hbind' : ∀ a b : F, a • pub.g + b • pub.htilde = 0 → a = 0 ∧ b = 0) :
    let w := extract ch ch' x x'
    Authentic e pub z acc (cl.a - w.rho • pub.htilde) w.c w.s w.m2 (cl.g - w.r • pub.htilde)
      (cl.s - w.r'' • pub.hCap) (cl.u - w.r''' • pub.hCap) (cl.w - w.r' • pub.hCap) ∧
    w.m = w.rho * w.c ∧ w.m' = w.r * w.r'' := by
  intro w
  have hk : (ch - ch')⁻¹ * (ch - ch') = 1 := inv_mul_cancel₀ (sub_ne_zero.mpr hne)
  -- the extracted values satisfy the linear system
  have key : ∀ {M : Type} [AddCommGroup M] [Module F M] (E A B W : M), ch • E + A = ch' • E + B →
      W = (ch - ch')⁻¹ • (B - A) → W = E := by
    intro M _ _ E A B W hh hW
    have : B - A = (ch - ch') • E := by
      rw [sub_smul, sub_eq_sub_iff_add_eq_add, add_comm, ← hh]; 
    rw [hW, this, smul_smul, hk, one_smul]
  have q : tauValues e pub acc w cl = tauExpected e pub acc z cl := by
    have hh := heq
    simp only [verifyNonRevocProof, TauList.mk.injEq] at hh
    obtain ⟨g1, g2, g3, g4, g5, g6, g7, g8⟩ := hh
    ext
    · apply key _ _ _ _ g1; simp only [tauValues, w, extract]; module
    · apply key _ _ _ _ g2; simp only [tauValues, w, extract]; module
    · apply key _ _ _ _ g3; simp only [tauValues, w, extract]; module
    · apply key _ _ _ _ g4; simp only [tauValues, w, extract]; module
    · apply key _ _ _ _ g5; simp only [tauValues, w, extract]; module
    · apply key _ _ _ _ g6; simp only [tauValues, w, extract]; module
    · apply key _ _ _ _ g7; simp only [tauValues, w, extract]; module
    · apply key _ _ _ _ g8; simp only [tauValues, w, extract]; module
  clear_value w
  simp only [tauValues, tauExpected, TauList.mk.injEq] at q
  obtain ⟨q1, q2, q3, q4, q5, q6, q7, q8⟩ := q
  have hm : w.m = w.rho * w.c := by
    have : (w.rho * w.c - w.m) • pub.h + (w.o * w.c - w.t) • pub.htilde = 0 := by
      rw [← q2, ← q1]; module
    exact (sub_eq_zero.mp (hbind _ _ this).1).symm
  have hm' : w.m' = w.r * w.r'' := by
    have : (w.r * w.r'' - w.m') • pub.g + (w.o' * w.r'' - w.t') • pub.htilde = 0 := by
      rw [← q6, ← q5]; module
    exact (sub_eq_zero.mp (hbind' _ _ this).1).symm
  refine ⟨⟨?_, ?_, ?_, ?_⟩, hm, hm'⟩
  · simp only [map_sub, map_smul, map_neg, map_add, LinearMap.add_apply, LinearMap.sub_apply, LinearMap.neg_apply,
      LinearMap.smul_apply] at q4 ⊢
    linear_combination (norm := module) (-1 : F) • q4
  · rw [hm'] at q7
    simp only [map_sub, map_smul, map_neg, map_add, LinearMap.add_apply, LinearMap.sub_apply, LinearMap.neg_apply,
      LinearMap.smul_apply] at q7 ⊢
    linear_combination (norm := module) (-1 : F) • q7
  · rw [hm] at q3
    simp only [map_sub, map_smul, map_neg, map_add, LinearMap.add_apply, LinearMap.sub_apply, LinearMap.neg_apply,
      LinearMap.smul_apply] at q3 ⊢
    linear_combination (norm := module) (1:F) • q3
  · simp only [map_sub, map_smul, map_neg, map_add, LinearMap.add_apply, LinearMap.sub_apply, LinearMap.neg_apply,
      LinearMap.smul_apply] at q8 ⊢
    linear_combination (norm := module) (-1 : F) • q8

/-- **C51 (end to end)** Keys, registry, any legal issuer history; the issuer signs index `i` and the holder accepts the
credential with the witness built from the published deltas: then every non-revocation proof the holder makes against
that accumulator, with whatever randomness and for whatever challenge, convinces the verifier. -/
theorem nonrevoc_proof_end_to_end [DecidableEq GT] (m : Overflow) (e : G1 →ₗ[F] G2 →ₗ[F] GT) (pub : PubKey G1 G2) (priv : PrivKey F)
    (max : Nat) (byDefault : Bool) (γ : F) (z : GT) (tails : List G2)
    (i : Nat) (m2 vrPrime vr c : F) (ur : G1) (regS regS' : G2) (sig : NonRevSig F G1 G2) (dS : Option (Delta G2))
    (hsig : newNonRevocationCredential m i m2 ur pub priv max byDefault regS γ tails vr c = .ok (sig, regS', dS))
    (acc : G2) (omega : G2) (sig' : NonRevSig F G1 G2)
    (hproc : processNonRevocationCredential e sig vrPrime pub z acc omega = (sig', .ok ()))
    (rho r r' r'' r''' o o' : F) (tau : XList F) (ch : F) :
    ∃ proof, finalizeNonRevocProof (initNonRevocProof e sig' acc pub omega rho r r' r'' r''' o o' tau) ch = .ok proof ∧
      verifyNonRevocProof e pub acc z ch proof =
        (initNonRevocProof e sig' acc pub omega rho r r' r'' r''' o o' tau).tauList := by
  apply nonrevoc_proof_complete
  unfold newNonRevocationCredential at hsig
  simp only [Res.bind_eq_ok, Res.pure_eq, Prod.exists, Res.ok.injEq, Prod.mk.injEq] at hsig
  obtain ⟨_, _, -, hs, -, -⟩ := hsig
  unfold processNonRevocationCredential at hproc
  simp only [Prod.mk.injEq] at hproc
  obtain ⟨h1, h2⟩ := hproc
  rw [h1] at h2
  apply authentic_of_test e pub z acc sig' omega _ h2
  · rw [← h1, ← hs]; simp
  · rw [← h1, ← hs]

/-- **C51 / C50 consequence** The forged witness of a revoked holder does not only pass the holder's own test: with it the
holder makes non-revocation proofs that verify against the accumulator the index has been removed from. -/
theorem revoked_holder_proves_nonrevocation [DecidableEq GT] [DecidableEq G2] (m : Overflow) (e : G1 →ₗ[F] G2 →ₗ[F] GT) (pub : PubKey G1 G2) (max : Nat) (γ : F)
    (hmax : 2 * max + 1 < 2 ^ 32) (byDefault : Bool) (z : GT) (reg0 : G2)
    (gen : TailsGen F G2) (hsetup : newRevocationRegistryDef m e pub max byDefault γ = .ok (z, reg0, gen))
    (V V' : Finset Nat) (hV : V ⊆ Finset.Icc 1 max) (i : Nat) (hi : i ∈ Finset.Icc 1 max) (hiV : i ∉ V) (hiV' : i ∈ V')
    (sig : NonRevSig F G1 G2) (hg1 : sig.wgI = (γ ^ i) • pub.g) (hg2 : sig.gI = (γ ^ i) • pub.g)
    (hu : sig.uI = (γ ^ i) • pub.u)
    (hok : testWitnessSignature e sig pub z (accOf max γ pub.gDash V') (witOf max γ pub.gDash V' i) = .ok ())
    (rho r r' r'' r''' o o' : F) (tau : XList F) (ch : F) :
    ∃ w proof, forgedWitness max i V (collectTails gen) = .ok w ∧
      finalizeNonRevocProof (initNonRevocProof e sig (accOf max γ pub.gDash V) pub w rho r r' r'' r''' o o' tau) ch = .ok proof ∧
      verifyNonRevocProof e pub (accOf max γ pub.gDash V) z ch proof =
        (initNonRevocProof e sig (accOf max γ pub.gDash V) pub w rho r r' r'' r''' o o' tau).tauList := by
  obtain ⟨w, h1, h2⟩ := revoked_holder_forges_witness m e pub max γ hmax byDefault z reg0 gen hsetup V V' hV i hi hiV hiV'
    sig hg1 hok
  have ha := authentic_of_test e pub z _ sig w (hg1.trans hg2.symm) h2 (by rw [hg2, hu]; simp)
  obtain ⟨p, h3, h4⟩ := nonrevoc_proof_complete e pub z _ sig w ha rho r r' r'' r''' o o' tau ch
  exact ⟨w, p, h1, h3, h4⟩

end

/-! ### the hypotheses are satisfiable: a concrete issuer, credential and registry -/
section toy
open Verif.Toy

/-- a bilinear map on a two-dimensional `G1`, in which `g`, `h` are independent of `h~` -/
def pair2 : (ZMod 101 × ZMod 101) →ₗ[ZMod 101] ZMod 101 →ₗ[ZMod 101] (ZMod 101 × ZMod 101) :=
  (LinearMap.lsmul (ZMod 101) (ZMod 101 × ZMod 101)).flip

theorem pair2_apply (a : ZMod 101 × ZMod 101) (b : ZMod 101) : pair2 a b = b • a := rfl

/-- key made with `sk = 3`, `x = 7` -/
def toyPub : PubKey (ZMod 101 × ZMod 101) (ZMod 101) :=
  (newRevocationKeys (1, 0) (1, 0) (5, 0) (6, 0) (8, 0) (0, 1) (1 : ZMod 101) 1 1 (7 : ZMod 101) 3).1

/-- the credential for index 1 of a registry of size 1 with `gamma = 2`, context 9, `vr = 10` -/
def toySig : NonRevSig (ZMod 101) (ZMod 101 × ZMod 101) (ZMod 101) :=
  ⟨(7 + 1 : ZMod 101)⁻¹ • (5 + 9 * 6 + 10 * 8 + 2, 0), 1, 10, (3 + 2 : ZMod 101)⁻¹, 2, (2, 0), (2, 0), 1, 9⟩

theorem toy_authentic : Authentic pair2 toyPub (4, 0) 2 toySig.sigma toySig.c toySig.vr toySig.m2 toySig.gI
    toySig.sigmaI toySig.uI 0 := by
  constructor <;> simp only [pair2_apply, toyPub, toySig, newRevocationKeys] <;> decide +kernel

/-- the soundness theorem's hypotheses hold for the transcripts of an honest prover answering two challenges -/
example (rho r r' r'' r''' o o' : ZMod 101) (tau : XList (ZMod 101)) :
    ∃ x x' cl, verifyNonRevocProof pair2 toyPub 2 (4, 0) 5 (x, cl) = verifyNonRevocProof pair2 toyPub 2 (4, 0) 6 (x', cl) ∧
      (5 : ZMod 101) ≠ 6 ∧
      (∀ a b : ZMod 101, a • toyPub.h + b • toyPub.htilde = 0 → a = 0 ∧ b = 0) ∧
      (∀ a b : ZMod 101, a • toyPub.g + b • toyPub.htilde = 0 → a = 0 ∧ b = 0) := by
  obtain ⟨p, h1, h2⟩ := nonrevoc_proof_complete pair2 toyPub (4, 0) 2 toySig 0 toy_authentic rho r r' r'' r''' o o' tau 5
  obtain ⟨p', h1', h2'⟩ := nonrevoc_proof_complete pair2 toyPub (4, 0) 2 toySig 0 toy_authentic rho r r' r'' r''' o o' tau 6
  have e1 : p.2 = p'.2 := by
    cases h1; cases h1'; rfl
  refine ⟨p.1, p'.1, p.2, ?_, by decide, ?_, ?_⟩
  · conv_rhs => rw [e1]
    exact h2.trans h2'.symm
  · intro a b h
    simpa [toyPub, newRevocationKeys, Prod.ext_iff] using h
  · intro a b h
    simpa [toyPub, newRevocationKeys, Prod.ext_iff] using h

/-- the end-to-end theorem's hypotheses hold: the issuer signs index 1 of a registry of size 1 and the holder accepts -/
example : ∃ sig sig', newNonRevocationCredential .checked 1 9 (blindedRevocationSecret toyPub (4 : ZMod 101)) toyPub ⟨7, 3⟩ 1
      true (2 : ZMod 101) 2 [1, 2, 4] 6 1 = .ok (sig, 2, none) ∧
    processNonRevocationCredential pair2 sig 4 toyPub (4, 0) 2 0 = (sig', .ok ()) := by
  refine ⟨_, _, rfl, Prod.ext rfl ?_⟩
  simp only [processNonRevocationCredential, testWitnessSignature, pair2_apply, toyPub, newRevocationKeys,
    blindedRevocationSecret]
  decide +kernel

end toy
end Verif.CL.Rev
