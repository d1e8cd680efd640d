import Verif.Props.CLNonRevoc
import Verif.Props.CLPrimary
/-!
# C225: the holder chooses the context of its revocation credential
-/
set_option linter.unusedSectionVars false
set_option linter.unusedVariables false
namespace Verif.CL.Rev
open Finset

section
variable {F G1 G2 GT : Type} [Field F] [AddCommGroup G1] [Module F G1] [AddCommGroup G2] [Module F G2] [AddCommGroup GT] [Module F GT]

/-- the value a holder sends instead of `vr' h2`, if it wants the context `m'` and the issuer is going to use `m2` -/
def movedSecret (pub : PubKey G1 G2) (m2 m' vrPrime : F) : G1 := (m' - m2) • pub.h1 + blindedRevocationSecret pub vrPrime

/-- what the issuer makes of it is, but for the field `m2`, the credential for the context `m'` -/
theorem moved_credential (m : Overflow) (idx : Nat) (m2 m' vrPrime : F) (pub : PubKey G1 G2) (priv : PrivKey F) (max : Nat) (byDefault : Bool) (reg : G2) (γ : F)
    (tails : List G2) (vr c : F) :
    newNonRevocationCredential m idx m' (blindedRevocationSecret pub vrPrime) pub priv max byDefault reg γ tails vr c =
      newNonRevocationCredential m idx m2 (movedSecret pub m2 m' vrPrime) pub priv max byDefault reg γ tails vr c >>= fun r => pure ({ r.1 with m2 := m' }, r.2) := by
  unfold newNonRevocationCredential
  dsimp only
  generalize registerIssued m reg max idx byDefault tails = rr
  cases rr with
  | err t => rfl
  | panic => rfl
  | ok r =>
    obtain ⟨reg', d⟩ := r
    have hsum : pub.h0 + m' • pub.h1 + blindedRevocationSecret pub vrPrime + γ ^ idx • pub.g + vr • pub.h2 =
        pub.h0 + m2 • pub.h1 + movedSecret pub m2 m' vrPrime + γ ^ idx • pub.g + vr • pub.h2 := by
      unfold movedSecret
      rw [sub_smul]
      abel
    rw [hsum]
    rfl

theorem moved_ok {m : Overflow} {idx : Nat} {m2 m' vrPrime : F} {pub : PubKey G1 G2} {priv : PrivKey F} {max : Nat} {byDefault : Bool} {reg : G2} {γ : F}
    {tails : List G2} {vr c : F} {sig : NonRevSig F G1 G2} {reg' : G2} {d : Option (Delta G2)}
    (h : newNonRevocationCredential m idx m2 (movedSecret pub m2 m' vrPrime) pub priv max byDefault reg γ tails vr c = .ok (sig, reg', d)) :
    newNonRevocationCredential m idx m' (blindedRevocationSecret pub vrPrime) pub priv max byDefault reg γ tails vr c = .ok ({ sig with m2 := m' }, reg', d) := by
  rw [moved_credential m idx m2 m', h]
  rfl

/-- the secret does not decide whether the credential is made, and what happens to the registry -/
theorem any_secret_ok {m : Overflow} {idx : Nat} {m2 : F} {ur : G1} {pub : PubKey G1 G2} {priv : PrivKey F} {max : Nat} {byDefault : Bool} {reg : G2} {γ : F}
    {tails : List G2} {vr c : F} {sig : NonRevSig F G1 G2} {reg' : G2} {d : Option (Delta G2)}
    (h : newNonRevocationCredential m idx m2 ur pub priv max byDefault reg γ tails vr c = .ok (sig, reg', d)) (ur' : G1) :
    ∃ sig', newNonRevocationCredential m idx m2 ur' pub priv max byDefault reg γ tails vr c = .ok (sig', reg', d) := by
  unfold newNonRevocationCredential at h ⊢
  dsimp only at h ⊢
  generalize registerIssued m reg max idx byDefault tails = rr at h ⊢
  cases rr with
  | err t => cases h
  | panic => cases h
  | ok r =>
    obtain ⟨r1, r2⟩ := r
    cases h
    exact ⟨_, rfl⟩

theorem blindedCap_ur (pk : PrimaryPubKey) (b : Blinded G1) (pr : BlindedProof) (a : Option G1) : blindedCap pk { b with ur := a } pr = blindedCap pk b pr := by
  unfold blindedCap
  rfl

theorem checkBlindedProof_ur (sha : Bytes → Bytes) (b : Blinded G1) (pr : BlindedProof) (nonce : Int) (pk : PrimaryPubKey) (a : Option G1) :
    checkBlindedProof sha { b with ur := a } pr nonce pk = checkBlindedProof sha b pr nonce pk := by
  unfold checkBlindedProof
  rw [blindedCap_ur]

theorem signPrimary_ur (pk : PrimaryPubKey) (sk : PrimaryPrivKey) (ctx : Int) (vals : Map CredentialValue) (v : Int) (b : Blinded G1) (e : Int) (a : Option G1) :
    signPrimary pk sk ctx vals v { b with ur := a } e = signPrimary pk sk ctx vals v b e := by
  unfold signPrimary
  rfl

theorem newPrimaryCredential_ur (pk : PrimaryPubKey) (sk : PrimaryPrivKey) (ctx : Int) (vals : Map CredentialValue) (va : Int) (b : Blinded G1) (e : Int) (a : Option G1) :
    newPrimaryCredential pk sk ctx vals va { b with ur := a } e = newPrimaryCredential pk sk ctx vals va b e := by
  unfold newPrimaryCredential
  dsimp only
  rw [signPrimary_ur]

/-- **C225 (negation)** A holder asks for a revocation credential for a place, with `movedSecret` in the place of its blinded secret.  `sign_credential_with_revoc`
accepts this whenever it accepts the honest request, and the holder gets the credential that the issuer would have made for the context `m'` of the holder's choice,
instead of the context that belongs to the holder's name and the place. -/
theorem holder_chooses_context (m : Overflow) (sha : Bytes → Bytes) (toF : Int → F) (proverId : String) (b : Blinded G1) (bp : BlindedProof) (nonce issuanceNonce : Int)
    (vals : Map CredentialValue) (pk : CredPubKey G1 G2) (sk : PrimaryPrivKey) (rpk : PubKey G1 G2) (hr : pk.rKey = some rpk) (rsk : PrivKey F) (revIdx max : Nat)
    (byDefault : Bool) (reg : G2) (γ : F) (tails : List G2) (va e rnd : Int) (vr c : F) (m' vrPrime : F) (cs : CredSig F G1 G2) (sp : SigProof) (reg' : G2)
    (d : Option (Delta G2))
    (h : signCredentialWithRevoc m sha toF proverId { b with ur := some (blindedRevocationSecret rpk vrPrime) } bp nonce issuanceNonce vals pk sk (some rsk) revIdx max
      byDefault reg γ tails va e rnd vr c = .ok (cs, sp, reg', d)) :
    ∃ rc, signCredentialWithRevoc m sha toF proverId
        { b with ur := some (movedSecret rpk (toF (genCredentialContext sha proverId (some revIdx))) m' vrPrime) } bp nonce issuanceNonce vals pk sk (some rsk) revIdx max
        byDefault reg γ tails va e rnd vr c = .ok ({ p := cs.p, r := some rc }, sp, reg', d) ∧
      newNonRevocationCredential m revIdx m' (blindedRevocationSecret rpk vrPrime) rpk rsk max byDefault reg γ tails vr c = .ok ({ rc with m2 := m' }, reg', d) := by
  have hany := fun (m2 : F) (ur ur' : G1) (sig : NonRevSig F G1 G2) (reg' : G2) (d : Option (Delta G2))
    (h : newNonRevocationCredential m revIdx m2 ur rpk rsk max byDefault reg γ tails vr c = .ok (sig, reg', d)) => any_secret_ok h ur'
  have hmov := fun (m2 : F) (sig : NonRevSig F G1 G2) (reg' : G2) (d : Option (Delta G2))
    (h : newNonRevocationCredential m revIdx m2 (movedSecret rpk m2 m' vrPrime) rpk rsk max byDefault reg γ tails vr c = .ok (sig, reg', d)) => moved_ok h
  unfold signCredentialWithRevoc at h ⊢
  simp only [checkBlindedProof_ur, newPrimaryCredential_ur, hr] at h ⊢
  generalize @newNonRevocationCredential F G1 G2 _ _ _ _ _ = N at h hany hmov ⊢
  generalize @checkBlindedProof G1 = A1 at h ⊢
  generalize @newPrimaryCredential G1 = A2 at h ⊢
  generalize @newSigProof = A3 at h ⊢
  generalize genCredentialContext sha proverId (some revIdx) = ctx at h ⊢
  obtain ⟨_, h1, ha⟩ := Res.bind_eq_ok.1 h
  obtain ⟨⟨sig, q⟩, h2, hb⟩ := Res.bind_eq_ok.1 ha
  obtain ⟨ur, h3, hc⟩ := Res.bind_eq_ok.1 hb
  obtain ⟨rpk', h4, hd⟩ := Res.bind_eq_ok.1 hc
  obtain ⟨rsk', h5, he⟩ := Res.bind_eq_ok.1 hd
  obtain ⟨⟨rc, regA, dA⟩, h6, hf⟩ := Res.bind_eq_ok.1 he
  obtain ⟨sp', h7, hg⟩ := Res.bind_eq_ok.1 hf
  clear h ha hb hc hd he hf
  rw [Res.ofOption_some, Res.ok.injEq] at h3 h4 h5
  subst h3 h4 h5
  rw [Res.pure_eq, Res.ok.injEq, Prod.mk.injEq, Prod.mk.injEq, Prod.mk.injEq] at hg
  obtain ⟨hA, hB, hC, hD⟩ := hg
  subst hA hB hC hD
  -- the moved request gives a credential as well
  obtain ⟨rc', h8⟩ := hany _ _ (movedSecret rpk (toF ctx) m' vrPrime) _ _ _ h6
  refine ⟨rc', ?_, hmov _ _ _ _ h8⟩
  rw [h1]
  rw [Res.ok_bind]
  rw [h2]
  rw [Res.ok_bind]
  rw [Res.ofOption_some, Res.ok_bind]
  rw [Res.ofOption_some, Res.ok_bind]
  rw [Res.ofOption_some, Res.ok_bind]
  rw [h8]
  rw [Res.ok_bind]
  rw [h7]
  rw [Res.ok_bind]
  rw [Res.pure_eq]

/-- **C225 (negation, effect)** What the holder gets this way is worth as much as a credential that was issued for `m'`: the holder's check accepts it if and only if the
place is issued, and then every non-revocation proof made with it, for the context `m'`, convinces the verifier. -/
theorem chosen_context_proves [DecidableEq GT] [DecidableEq G2] (m : Overflow) (e : G1 →ₗ[F] G2 →ₗ[F] GT)
    (g h h0 h1 h2 htilde : G1) (u hCap gDash : G2) (x sk : F) (pub : PubKey G1 G2) (priv : PrivKey F)
    (hkeys : newRevocationKeys g h h0 h1 h2 htilde u hCap gDash x sk = (pub, priv))
    (max : Nat) (byDefault : Bool) (γ : F) (hmax : 2 * max + 1 < 2 ^ 32) (z : GT) (reg0 : G2) (gen : TailsGen F G2)
    (hsetup : newRevocationRegistryDef m e pub max byDefault γ = .ok (z, reg0, gen))
    (i : Nat) (hi : i ∈ Icc 1 max) (m2 m' vrPrime vr c : F) (hc : x + c ≠ 0) (hsk : sk + γ ^ i ≠ 0)
    (regS regS' : G2) (sig : NonRevSig F G1 G2) (dS : Option (Delta G2))
    (hsig : newNonRevocationCredential m i m2 (movedSecret pub m2 m' vrPrime) pub priv max byDefault regS γ
      (collectTails gen) vr c = .ok (sig, regS', dS))
    (ops : List Op) (hops : ValidHistory max byDefault (initialSet max byDefault) ops) (reg : G2) (ds : List (Delta G2))
    (hrun : runOps m max byDefault (collectTails gen) ops reg0 = .ok (reg, ds)) (D : Delta G2)
    (hD : mergeAll (Delta.fromParts none reg0 ∅ ∅) ds = .ok D)
    (w : G2) (hw : witnessNew m i max byDefault D (collectTails gen) = .ok w)
    (hnd : e g gDash ≠ 0) (hγ : γ ≠ 0) (issued : i ∈ effectAll byDefault (initialSet max byDefault) ops)
    (rho r r1 r2 r3 o o' : F) (tau : XList F) (ch : F) :
    ∃ sig' proof, processNonRevocationCredential e { sig with m2 := m' } vrPrime pub z reg w = (sig', .ok ()) ∧ sig'.m2 = m' ∧
      finalizeNonRevocProof (initNonRevocProof e sig' reg pub w rho r r1 r2 r3 o o' tau) ch = .ok proof ∧
      verifyNonRevocProof e pub reg z ch proof = (initNonRevocProof e sig' reg pub w rho r r1 r2 r3 o o' tau).tauList := by
  have hmoved := moved_ok hsig
  have hok := (nonrevocation_credential_accepted_iff m e g h h0 h1 h2 htilde u hCap gDash x sk pub priv hkeys max byDefault γ hmax z reg0 gen hsetup i hi m' vrPrime vr c hc hsk
    regS regS' _ dS hmoved ops hops reg ds hrun D hD w hw hnd hγ).2 issued
  have hproc : processNonRevocationCredential e { sig with m2 := m' } vrPrime pub z reg w =
      ((processNonRevocationCredential e { sig with m2 := m' } vrPrime pub z reg w).1, .ok ()) := by rw [← hok]
  obtain ⟨proof, h3, h4⟩ := nonrevoc_proof_end_to_end m e pub priv max byDefault γ z (collectTails gen) i m' vrPrime vr c _ regS regS' _ dS hmoved reg w _ hproc
    rho r r1 r2 r3 o o' tau ch
  exact ⟨_, proof, hproc, rfl, h3, h4⟩
end

namespace Context.Example
open Verif.CL Verif.Toy Verif.CL.Rev.Example

/-- C225 applies: an issuer with a registry of three places issues place 3 to `"prover"`; the holder can move the credential to the context 5, and to any other -/
example (m' : ZMod 101) : ∃ (pk : CredPubKey (ZMod 101) (ZMod 101)) (sk : PrimaryPrivKey) (b : Blinded (ZMod 101)) (bp : BlindedProof)
    (gen : TailsGen (ZMod 101) (ZMod 101)) (cs : CredSig (ZMod 101) (ZMod 101) (ZMod 101)) (sp : SigProof) (reg' : ZMod 101) (d : Option (Delta (ZMod 101))),
    signCredentialWithRevoc .checked (fun b => b) (fun x => (x : ZMod 101)) "prover" b bp 10 11 exHolder pk sk (some keys.2) 3 3 true acc0 γ0 (collectTails gen)
      12 7 13 13 14 = .ok (cs, sp, reg', d) ∧
    ∃ rc, signCredentialWithRevoc .checked (fun b => b) (fun x => (x : ZMod 101)) "prover"
      { b with ur := some (movedSecret keys.1 (genCredentialContext (fun b => b) "prover" (some 3) : ZMod 101) m' 12) } bp 10 11 exHolder pk sk (some keys.2) 3 3 true acc0 γ0
      (collectTails gen) 12 7 13 13 14 = .ok (⟨cs.p, some rc⟩, sp, reg', d) := by
  obtain ⟨pk, sk, md, _, S, hk, hsk, hord, hkn, _, hmz, hmr, hsq⟩ :=
    new_primary_keys_spec exKeys 7 11 (by norm_num) (by norm_num) (by norm_num) (by norm_num) (by norm_num) 2 (by norm_num)
      (by decide) 3 (fun k => (k.length : Int)) 4
  obtain ⟨kp, _, hkc⟩ := key_proof_complete (fun b => b) pk md hk (by rw [hkn]; decide) hmz (by rw [hkn]; exact hmr) 8 (fun _ => 9)
  have hkey : ∀ k ∈ exHolder.map (·.1), pk.r.hasKey k = true := by
    intro k hkm
    rw [hasKey_iff_mem, hkn]
    revert hkm k
    decide
  have hh : (exHolder.map (·.1)).Nodup := by decide
  obtain ⟨b, bf, bp, _, hU, -, hur, hbf, -, hbc⟩ := blinded_proof_complete (F := ZMod 101) (G1 := ZMod 101) (G2 := ZMod 101) (fun b => b)
    ⟨pk, some keys.1⟩ kp hk hkc exHolder hh (fun e he _ => hkey e.1 (List.mem_map.2 ⟨e, he, rfl⟩)) 10 1 7 (fun _ => 8) (fun _ => 9) 12
  obtain ⟨gen, hg, h⟩ := registry_created .checked toyE keys.1 3 true γ0 (by norm_num)
  obtain ⟨ds, hds⟩ := accumulator_matches_issued_set .checked toyE keys.1 3 true γ0 (by norm_num) _ _ _ h
    history history_valid
  obtain ⟨D, D2, w1, w2, h1, h2, h3, -⟩ := witness_update_eq_recompute .checked toyE keys.1 3 true γ0 (by norm_num) _ _ _ h
    history [] history_valid trivial 3 le_rfl _ _ _ _ hds rfl
  obtain ⟨sig, sp, hsig, hiff⟩ := revocable_issuance_accepted_iff .checked toyE (fun b => b) (fun x => (x : ZMod 101))
    (fun x => decide (1 < x)) _ _ _ _ _ _ _ _ _ _ _ keys.1 keys.2 rfl ⟨pk, some keys.1⟩ rfl hk sk
    (7 / 2 * (11 / 2)) hsk (by norm_num) "prover" b bp 10 11 hbc _ 1 hU 12 hur exHolder exHolder
    (fun e he _ => hkey e.1 (List.mem_map.2 ⟨e, he, rfl⟩))
    (fun e he => hkey e.1 (List.mem_map.2 ⟨e, (List.mem_filter.1 he).1, rfl⟩)) (signed_split _ hh)
    3 3 true acc0 γ0 12 7 13 13 14 (by norm_num) (by decide) (by decide)
    (by
      rw [div_pow, mul_pow, mul_pow, mul_pow, mul_pow, attrProd_pow_one hord, hiddenProd_pow_one hord]
      simp only [zpow_pow_one hord, zpow_pow_one (zpow_pow_one hord _), mul_one, div_one])
    (by norm_num) _ _ _ h (by decide) (by decide) (by decide) _ _ _ rfl history history_valid _ _ hds D h1 w1 h3
    (by rw [toyE_apply]; decide) (by decide)
  have hb : ({ b with ur := some (blindedRevocationSecret keys.1 (12 : ZMod 101)) } : Blinded (ZMod 101)) = b := by
    obtain ⟨_, _, _, _⟩ := b
    cases hur
    rfl
  rw [← hb] at hsig
  obtain ⟨rc, hrc, -⟩ := holder_chooses_context .checked (fun b => b) (fun x => (x : ZMod 101)) "prover" b bp 10 11 exHolder ⟨pk, some keys.1⟩ sk keys.1 rfl keys.2 3 3
    true acc0 γ0 (collectTails gen) 12 7 13 13 14 m' 12 sig sp _ _ hsig
  rw [hb] at hsig
  exact ⟨_, sk, b, bp, gen, sig, sp, _, _, hsig, rc, hrc⟩

/-- the effect applies: place 3 is still issued after the history, and the credential that was made for the context 9 proves non-revocation for the context 5 -/
example (rho r r1 r2 r3 o o' : ZMod 101) (tau : XList (ZMod 101)) (ch : ZMod 101) :
    ∃ (gen : TailsGen (ZMod 101) (ZMod 101)) (sig sig' : NonRevSig (ZMod 101) (ZMod 101) (ZMod 101)) (z reg reg' w : ZMod 101) (d : Option (Delta (ZMod 101))) (proof : _),
      newNonRevocationCredential .checked 3 9 (movedSecret keys.1 (9 : ZMod 101) 5 4) keys.1 keys.2 3 true acc0 γ0 (collectTails gen) 13 14 = .ok (sig, reg', d) ∧ sig'.m2 = 5 ∧
      verifyNonRevocProof toyE keys.1 reg z ch proof = (initNonRevocProof toyE sig' reg keys.1 w rho r r1 r2 r3 o o' tau).tauList := by
  obtain ⟨gen, hg, h⟩ := registry_created .checked toyE keys.1 3 true γ0 (by norm_num)
  obtain ⟨ds, hds⟩ := accumulator_matches_issued_set .checked toyE keys.1 3 true γ0 (by norm_num) _ _ _ h
    history history_valid
  obtain ⟨D, D2, w1, w2, h1, h2, h3, -⟩ := witness_update_eq_recompute .checked toyE keys.1 3 true γ0 (by norm_num) _ _ _ h
    history [] history_valid trivial 3 le_rfl _ _ _ _ hds rfl
  have hsig : newNonRevocationCredential .checked 3 9 (movedSecret keys.1 (9 : ZMod 101) 5 4) keys.1 keys.2 3 true acc0 γ0 (collectTails gen) 13 14 = .ok (_, acc0, none) := rfl
  obtain ⟨sig', proof, -, h5, -, h6⟩ := chosen_context_proves .checked toyE _ _ _ _ _ _ _ _ _ _ _ keys.1 keys.2 rfl 3 true γ0 (by norm_num) _ _ _ h 3 (by decide) 9 5 4 13 14
    (by decide) (by decide) _ _ _ _ hsig history history_valid _ _ hds D h1 w1 h3 (by rw [toyE_apply]; decide) (by decide) (by rw [history_effect]; decide)
    rho r r1 r2 r3 o o' tau ch
  exact ⟨gen, _, sig', _, _, _, w1, _, proof, hsig, h5, h6⟩
end Context.Example
end Verif.CL.Rev
