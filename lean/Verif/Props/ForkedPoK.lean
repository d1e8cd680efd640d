import Verif.Props.Forking
import Verif.Props.BBSMore
import Verif.Props.PSMore
import Mathlib.Data.Set.Finite.List
import Mathlib.Data.Fintype.EquivFin
/-!
# Accepted proofs of knowledge come from provers who know (C198)

The proofs of knowledge of a vector commitment (`verify_complete_proof`), of the committed messages of a BBS+ blind signature, of a BBS+
signature and of a PS signature, with challenges from a random oracle: from a prover that is accepted with probability `ε` after at
most `q` questions to the oracle, running it twice yields the witness with probability at least `ε² / (q + 1) - ε / |F|`.
-/
set_option linter.unusedSectionVars false
set_option linter.unusedVariables false
set_option linter.unusedSimpArgs false
namespace Verif.Forking
open Verif Verif.PoK

/-- the byte strings of at most `L` bytes -/
abbrev Query (L : Nat) := {b : Bytes // b.length ≤ L}

noncomputable instance (L : Nat) : Fintype (Query L) := by
  have : Finite UInt8 := Finite.of_injective UInt8.toFin (fun a b h => UInt8.toFin_inj.1 h)
  have : Finite (Query L) := (List.finite_length_le UInt8 L).to_subtype
  exact Fintype.ofFinite _

instance (L : Nat) : DecidableEq (Query L) := inferInstance

/-- the hash function that the oracle is; longer strings than `L` bytes are never asked -/
def hashOf {F : Type} [Zero F] {L : Nat} (f : Query L → F) : Bytes → F := fun b => if h : b.length ≤ L then f ⟨b, h⟩ else 0

theorem hashOf_eq {F : Type} [Zero F] {L : Nat} (f : Query L → F) (b : Bytes) (h : b.length ≤ L) : hashOf f b = f ⟨b, h⟩ := by
  simp [hashOf, h]

theorem pr_mono {Ω : Type} [Fintype Ω] {P Q : Ω → Prop} (h : ∀ ω, P ω → Q ω) : pr P ≤ pr Q := by
  classical
  unfold pr
  refine div_le_div_of_nonneg_right ?_ (Nat.cast_nonneg _)
  rw [Nat.cast_le]
  exact Finset.card_le_card (fun ω hω => by
    rw [Finset.mem_filter] at hω ⊢
    exact ⟨hω.1, h ω hω.2⟩)

theorem hiddenBases_le {A : Type} (k : Nat → Bool) : ∀ (i : Nat) (l : List A), (BBS.hiddenBases k i l).length ≤ l.length
  | _, [] => le_refl _
  | i, a :: l => by
    have ih := hiddenBases_le k (i + 1) l
    unfold BBS.hiddenBases
    split <;> simp only [List.length_cons] <;> omega

theorem encs_injective {A : Type} (c : Codec A) : ∀ l l' : List A, (l.map c.enc).flatten = (l'.map c.enc).flatten → l.length = l'.length →
    l = l'
  | [], [], _, _ => rfl
  | a :: l, b :: l', h, hl => by
    simp only [List.map_cons, List.flatten_cons] at h
    obtain ⟨h1, h2⟩ := List.append_inj h (by rw [c.enc_length, c.enc_length])
    rw [c.enc_injective h1, encs_injective c l l' h2 (by simpa using hl)]

section
variable {F R : Type} [Field F] [Fintype F] [DecidableEq F] [Fintype R]

/-! ## Vector commitments -/

section
variable {G : Type} [AddCommGroup G] [Module F G] [DecidableEq G]

/-- what `verify_complete_proof` hashes for an accepted proof -/
def vcBytes (cG : Codec G) (bases : List G) (nonce : Bytes) (o : G × F × Proof F G) : Bytes :=
  (bases.map cG.enc).flatten ++ cG.enc o.2.2.commitment ++ cG.enc o.1 ++ nonce

theorem vcBytes_length (cG : Codec G) (bases : List G) (nonce : Bytes) (o : G × F × Proof F G) :
    (vcBytes cG bases nonce o).length = (bases.length + 2) * cG.size + nonce.length := by
  simp only [vcBytes, List.length_append, flatten_enc_length, cG.enc_length]; ring

/-- **C198** A prover that outputs a commitment, a challenge and a proof that `verify_complete_proof` accepts can open the commitment:
`(y - y') / (c' - c)`, for the responses of two runs, is an opening. -/
theorem vector_commitment_known (cG : Codec G) (bases : List G) (nonce : Bytes) (L : Nat)
    (hL : (bases.length + 2) * cG.size + nonce.length ≤ L) (A : R → Prover (Query L) F (G × F × Proof F G)) (q : Nat)
    (hq : ∀ ρ, (A ρ).AtMost q) :
    let accepted (f : Query L → F) (o : G × F × Proof F G) : Prop := o.2.2.verifyComplete cG.enc (hashOf f) bases o.1 o.2.1 nonce = .ok true
    let question (o : G × F × Proof F G) : Query L := ⟨vcBytes cG bases nonce o, by rw [vcBytes_length]; exact hL⟩
    let ε := pr fun ω : R × (Query L → F) => accepted ω.2 ((A ω.1).run ω.2)
    ε ^ 2 / (q + 1) - ε / Fintype.card F ≤ pr fun ω : R × (Query L → F) × (Query L → F) =>
      let o := (A ω.1).run ω.2.1
      let o' := (A ω.1).run (second question (A ω.1) ω.2.1 ω.2.2)
      accepted ω.2.1 o ∧ Opens bases o.1 (List.zipWith (fun y y' => (o'.2.1 - o.2.1)⁻¹ * (y - y')) o.2.2.responses o'.2.2.responses) := by
  intro accepted question ε
  let win : G × F × Proof F G → F → Prop := fun o c => o.2.2.verify bases o.1 o.2.1 = .ok true ∧ o.2.1 = c
  have hacc : ∀ f o, accepted f o ↔ win o (f (question o)) := by
    intro f o
    have := verify_complete_iff cG.enc (hashOf f) o.2.2 bases o.1 o.2.1 nonce
    simp only [accepted, win, this]
    rw [← hashOf_eq f (vcBytes cG bases nonce o) (by rw [vcBytes_length]; exact hL)]
    rfl
  have hε : ε = pr fun ω : R × (Query L → F) => win ((A ω.1).run ω.2) (ω.2 (question ((A ω.1).run ω.2))) := by
    simp only [ε, hacc]
  rw [hε]
  refine (forking question win A q hq).trans (pr_mono ?_)
  rintro ⟨ρ, f, f'⟩ ⟨h1, h2, h3, h4⟩
  refine ⟨(hacc _ _).2 h1, ?_⟩
  dsimp only at h1 h2 h3 h4 ⊢
  set o := (A ρ).run f
  set o' := (A ρ).run (second question (A ρ) f f')
  have hb : vcBytes cG bases nonce o = vcBytes cG bases nonce o' := congrArg Subtype.val h3
  simp only [vcBytes, List.append_assoc] at hb
  have a1 := List.append_cancel_left hb
  have a2 := List.append_inj a1 (by rw [cG.enc_length, cG.enc_length])
  have a3 := List.append_inj a2.2 (by rw [cG.enc_length, cG.enc_length])
  have hT := cG.enc_injective a2.1
  have hC := cG.enc_injective a3.1
  rw [← h1.2, ← h2.2] at h4
  exact pok_sound _ _ _ _ _ _ hT h4 h1.1 (by rw [hC]; exact h2.1)
end

/-! ## BBS+ -/

section
variable {G1 G2 GT : Type} [AddCommGroup G1] [Module F G1] [AddCommGroup G2] [Module F G2] [AddCommGroup GT] [Module F GT]
  [DecidableEq G1] [DecidableEq G2] [DecidableEq GT]
open Verif.BBS

/-- what the issuer hashes for an accepted context -/
def ctxBytes (P : BBS.Params F G1 G2 GT) (revealed : List Nat) (pk : BBS.PublicKey G1 G2) (nonce : F) (ctx : BBS.BlindCtx F G1) : Bytes :=
  vcBytes P.encG1 (pk.h0 :: hiddenBases (fun i => revealed.contains i) 0 pk.h) (P.encF.enc nonce) (ctx.commitment, ctx.challenge, ctx.proof)

theorem ctxBytes_length (P : BBS.Params F G1 G2 GT) (revealed : List Nat) (pk : BBS.PublicKey G1 G2) (nonce : F) (ctx : BBS.BlindCtx F G1) :
    (ctxBytes P revealed pk nonce ctx).length ≤ (pk.h.length + 3) * P.encG1.size + P.encF.size := by
  rw [ctxBytes, vcBytes_length, P.encF.enc_length, List.length_cons]
  have := hiddenBases_le (fun i => revealed.contains i) 0 pk.h
  have h2 : (hiddenBases (fun i => revealed.contains i) 0 pk.h).length + 1 + 2 ≤ pk.h.length + 3 := by omega
  exact Nat.add_le_add_right (Nat.mul_le_mul_right _ h2) _

/-- **C198** Whoever gets a blind signature context accepted by the issuer knows the messages in it: `extractCtx`, for the contexts of two
runs, opens the commitment, and every blind signature the issuer makes for the first context is, unblinded with the extracted factor,
a signature on the extracted messages together with those known to the issuer. -/
theorem blind_messages_known (P : BBS.Params F G1 G2 GT) (x : F) (pk : BBS.PublicKey G1 G2) (known : List (Nat × F)) (hsk : Sorted known)
    (nonce : F) (L : Nat) (hL : (pk.h.length + 3) * P.encG1.size + P.encF.size ≤ L) (A : R → Prover (Query L) F (BlindCtx F G1)) (q : Nat)
    (hq : ∀ ρ, (A ρ).AtMost q) :
    let accepted (f : Query L → F) (ctx : BlindCtx F G1) : Prop :=
      ctx.verify { P with hashFr := hashOf f } (known.map (·.1)) pk nonce = .ok true
    let question (ctx : BlindCtx F G1) : Query L := ⟨ctxBytes P (known.map (·.1)) pk nonce ctx, (ctxBytes_length _ _ _ _ _).trans hL⟩
    let ε := pr fun ω : R × (Query L → F) => accepted ω.2 ((A ω.1).run ω.2)
    ε ^ 2 / (q + 1) - ε / Fintype.card F ≤ pr fun ω : R × (Query L → F) × (Query L → F) =>
      let ctx := (A ω.1).run ω.2.1
      let ctx' := (A ω.1).run (second question (A ω.1) ω.2.1 ω.2.2)
      let blinding := (extractCtx ctx ctx').headD 0
      let msgs := fill (mapGet known) 0 pk.h.length (extractCtx ctx ctx').tail
      accepted ω.2.1 ctx ∧
      msm (pk.h0 :: hiddenBases (fun i => (mapGet known i).isSome) 0 pk.h) (extractCtx ctx ctx') = ctx.commitment ∧
      (∀ i m, mapGet known i = some m → i < pk.h.length → msgs[i]? = some m) ∧
      ∀ e s bsig, blindSign { P with hashFr := hashOf ω.2.1 } ctx known x pk nonce e s = .ok bsig →
        Valid P x pk (bsig.unblind blinding).a (bsig.unblind blinding).e (bsig.unblind blinding).s msgs := by
  intro accepted question ε
  set bases := pk.h0 :: hiddenBases (fun i => (known.map (·.1)).contains i) 0 pk.h with hbases
  let win : BlindCtx F G1 → F → Prop := fun o c => o.proof.verify bases o.commitment o.challenge = .ok true ∧ o.challenge = c
  have hacc : ∀ f o, accepted f o ↔ win o (f (question o)) := by
    intro f o
    have h0 := ctx_verify_iff { P with hashFr := hashOf f } o (known.map (·.1)) pk nonce
    have := verify_complete_iff P.encG1.enc (hashOf f) o.proof bases o.commitment o.challenge (P.encF.enc nonce)
    simp only [accepted, win]
    refine (h0.trans this).trans ?_
    rw [← hashOf_eq f (ctxBytes P (known.map (·.1)) pk nonce o) ((ctxBytes_length _ _ _ _ _).trans hL)]
    rfl
  have hε : ε = pr fun ω : R × (Query L → F) => win ((A ω.1).run ω.2) (ω.2 (question ((A ω.1).run ω.2))) := by
    simp only [ε, hacc]
  rw [hε]
  refine (forking question win A q hq).trans (pr_mono ?_)
  rintro ⟨ρ, f, f'⟩ ⟨h1, h2, h3, h4⟩
  have g1 := (hacc _ _).2 h1
  have g2 := (hacc _ _).2 h2
  refine ⟨g1, ?_⟩
  dsimp only at h1 h2 h3 h4 g1 g2 ⊢
  set o := (A ρ).run f
  set o' := (A ρ).run (second question (A ρ) f f')
  have hb : ctxBytes P (known.map (·.1)) pk nonce o = ctxBytes P (known.map (·.1)) pk nonce o' := congrArg Subtype.val h3
  simp only [ctxBytes, vcBytes, List.append_assoc] at hb
  have a1 := List.append_cancel_left hb
  have a2 := List.append_inj a1 (by rw [P.encG1.enc_length, P.encG1.enc_length])
  have a3 := List.append_inj a2.2 (by rw [P.encG1.enc_length, P.encG1.enc_length])
  have hT := P.encG1.enc_injective a2.1
  have hC := P.encG1.enc_injective a3.1
  rw [← h1.2, ← h2.2] at h4
  obtain ⟨b1, b2, b3⟩ := bbs_blind_sound { P with hashFr := hashOf f } (hashOf (second question (A ρ) f f')) o o' known x pk nonce nonce hsk
    g1 g2 hC hT h4
  refine ⟨b1, b2, fun e s bsig hs => b3 e s bsig ?_⟩
  exact (bbs_blind_sign_checks _ _ _ _ _ _ _ _ _ hs).2

/-- what the verifier hashes for a presentation -/
def presBytes (P : BBS.Params F G1 G2 GT) (asked : List Nat) (pk : BBS.PublicKey G1 G2) (nonce : F) (p : BBS.SigProof F G1) : Bytes :=
  p.bytesForChallenge P asked pk ++ P.encF.enc nonce

theorem presBytes_length (P : BBS.Params F G1 G2 GT) (asked : List Nat) (pk : BBS.PublicKey G1 G2) (nonce : F) (p : BBS.SigProof F G1) :
    (presBytes P asked pk nonce p).length ≤ (pk.h.length + 7) * P.encG1.size + P.encF.size := by
  have := hiddenBases_le (fun i => asked.contains i) 0 pk.h
  simp only [presBytes, BBS.SigProof.bytesForChallenge, List.length_append, P.encG1.enc_length, P.encF.enc_length, flatten_enc_length]
  nlinarith

/-- **C198** Whoever is accepted by the verifier of BBS+ presentations, for values of the revealed messages that were fixed in advance, has a
signature on messages that contain them: `extractSig`, `extractMsgs` compute it from the proofs of two runs.  (If the prover may
choose the revealed values late, this is false, see `bbs_revealed_value_forged`.) -/
theorem bbs_signature_known (P : BBS.Params F G1 G2 GT) (hnd : BBS.Nondeg P) (x : F) (pk : BBS.PublicKey G1 G2) (hw : pk.w = x • P.g2)
    (asked : List Nat) (rev : List (Nat × F)) (nonce : F) (L : Nat) (hL : (pk.h.length + 7) * P.encG1.size + P.encF.size ≤ L)
    (A : R → Prover (Query L) F (BBS.SigProof F G1)) (q : Nat) (hq : ∀ ρ, (A ρ).AtMost q) :
    let accepted (f : Query L → F) (p : BBS.SigProof F G1) : Prop :=
      verifySignaturePok { P with hashFr := hashOf f } ⟨asked, pk⟩ ⟨rev, p⟩ nonce = .ok (rev.map (·.2))
    let question (p : BBS.SigProof F G1) : Query L := ⟨presBytes P asked pk nonce p, (presBytes_length _ _ _ _ _).trans hL⟩
    let ε := pr fun ω : R × (Query L → F) => accepted ω.2 ((A ω.1).run ω.2)
    ε ^ 2 / (q + 1) - ε / Fintype.card F ≤ pr fun ω : R × (Query L → F) × (Query L → F) =>
      let p := (A ω.1).run ω.2.1
      let f2 := second question (A ω.1) ω.2.1 ω.2.2
      let p' := (A ω.1).run f2
      let sig := BBS.extractSig (ω.2.1 (question p)) (f2 (question p')) p p'
      let msgs := BBS.extractMsgs (ω.2.1 (question p)) (f2 (question p')) p p' rev pk.h.length
      accepted ω.2.1 p ∧ Valid P x pk sig.a sig.e sig.s msgs ∧
      (∀ i m, mapGet rev i = some m → i < pk.h.length → msgs[i]? = some m) ∧
      (sig.a = 0 → P.g1 + sig.s • pk.h0 + ((pk.h.zip msgs).map (fun q => q.2 • q.1)).sum = 0) ∧
      (sig.a ≠ 0 → sig.e ≠ 0 → sig.s ≠ 0 → sig.verify P msgs pk = .ok true) := by
  intro accepted question ε
  let win : BBS.SigProof F G1 → F → Prop := fun p c => p.verify P pk rev c = .ok .success
  have hacc : ∀ f o, accepted f o ↔ win o (f (question o)) := by
    intro f o
    have h0 := verifySignaturePok_ok { P with hashFr := hashOf f } ⟨asked, pk⟩ ⟨rev, o⟩ nonce (rev.map (·.2))
    simp only [accepted, win]
    refine h0.trans ?_
    rw [← hashOf_eq f (presBytes P asked pk nonce o) ((presBytes_length _ _ _ _ _).trans hL)]
    exact ⟨fun h => h.2, fun h => ⟨rfl, h⟩⟩
  have hε : ε = pr fun ω : R × (Query L → F) => win ((A ω.1).run ω.2) (ω.2 (question ((A ω.1).run ω.2))) := by
    simp only [ε, hacc]
  rw [hε]
  refine (forking question win A q hq).trans (pr_mono ?_)
  rintro ⟨ρ, f, f'⟩ ⟨h1, h2, h3, h4⟩
  refine ⟨(hacc _ _).2 h1, ?_⟩
  dsimp only at h1 h2 h3 h4 ⊢
  set o := (A ρ).run f
  set o' := (A ρ).run (second question (A ρ) f f')
  have hb : presBytes P asked pk nonce o = presBytes P asked pk nonce o' := congrArg Subtype.val h3
  have enc : ∀ a b : G1, (P.encG1.enc a).length = (P.encG1.enc b).length := fun a b => by rw [P.encG1.enc_length, P.encG1.enc_length]
  simp only [presBytes, BBS.SigProof.bytesForChallenge, List.append_assoc] at hb
  have a1 := List.append_inj hb (enc _ _)
  have a2 := List.append_inj a1.2 (enc _ _)
  have a3 := List.append_inj (List.append_cancel_left a2.2) (enc _ _)
  have a4 := List.append_inj a3.2 (enc _ _)
  have a5 := List.append_inj (List.append_cancel_left (List.append_cancel_left a4.2)) (enc _ _)
  exact BBS.bbs_pok_sound P hnd o o' pk x rev _ _ hw h1 h2 h4 (P.encG1.enc_injective a2.1) (P.encG1.enc_injective a1.1)
    (P.encG1.enc_injective a4.1) (P.encG1.enc_injective a3.1) (P.encG1.enc_injective a5.1)
end

/-! ## PS -/

section
variable {S O GT : Type} [AddCommGroup S] [Module F S] [AddCommGroup O] [Module F O] [AddCommGroup GT] [Module F GT]
  [DecidableEq S] [DecidableEq O] [DecidableEq GT]
open Verif.PS
open Verif.BBS (hiddenBases mapGet)

/-- what prover and verifier hash -/
def psBytes (P : PS.Params F S O GT) (cS : Codec S) (cO : Codec O) (vk : PS.Verkey O) (o : PS.SigProof F S O × List (Nat × F)) : Bytes :=
  o.1.bytesForChallenge P cS.enc cO.enc (o.2.map (·.1)) vk

theorem psBytes_length (P : PS.Params F S O GT) (cS : Codec S) (cO : Codec O) (vk : PS.Verkey O) (o : PS.SigProof F S O × List (Nat × F)) :
    (psBytes P cS cO vk o).length = 2 * cS.size + ((hiddenBases (fun i => (o.2.map (·.1)).contains i) 0 vk.Y).length + 3) * cO.size := by
  simp only [psBytes, PS.SigProof.bytesForChallenge, PS.Signature.toBytes, List.length_append, cS.enc_length, cO.enc_length, flatten_enc_length]
  ring

theorem psBytes_le (P : PS.Params F S O GT) (cS : Codec S) (cO : Codec O) (vk : PS.Verkey O) (o : PS.SigProof F S O × List (Nat × F)) :
    (psBytes P cS cO vk o).length ≤ 2 * cS.size + (vk.Y.length + 3) * cO.size := by
  rw [psBytes_length]
  have := hiddenBases_le (fun i => (o.2.map (·.1)).contains i) 0 vk.Y
  gcongr

/-- **C198** Whoever is accepted by the verifier of proofs of PS signatures has a signature on messages that contain the revealed ones, even if
the prover chooses what to reveal: the randomised signature unblinded with `extractT` is one, on the messages `extractMsgs`, both
computed from the proofs of two runs. -/
theorem ps_signature_known (P : PS.Params F S O GT) (hnd : PS.Nondeg P) (x : F) (ys : List F) (cS : Codec S) (cO : Codec O) (h0 : 0 < cO.size)
    (L : Nat) (hL : 2 * cS.size + (ys.length + 3) * cO.size ≤ L)
    (A : R → Prover (Query L) F (PS.SigProof F S O × List (Nat × F))) (q : Nat) (hq : ∀ ρ, (A ρ).AtMost q) :
    let vk := (keygen P x ys).1
    let question (o : PS.SigProof F S O × List (Nat × F)) : Query L :=
      ⟨psBytes P cS cO vk o, (psBytes_le P cS cO vk o).trans (by simpa [vk, keygen] using hL)⟩
    let accepted (f : Query L → F) (o : PS.SigProof F S O × List (Nat × F)) : Prop :=
      (o.2.map (·.1)).Nodup ∧ o.1.verify P vk o.2 (hashOf f (o.1.bytesForChallenge P cS.enc cO.enc (o.2.map (·.1)) vk)) = .ok true
    let ε := pr fun ω : R × (Query L → F) => accepted ω.2 ((A ω.1).run ω.2)
    ε ^ 2 / (q + 1) - ε / Fintype.card F ≤ pr fun ω : R × (Query L → F) × (Query L → F) =>
      let o := (A ω.1).run ω.2.1
      let f2 := second question (A ω.1) ω.2.1 ω.2.2
      let o' := (A ω.1).run f2
      let sig := unblind o.1.sig (extractT (ω.2.1 (question o)) (f2 (question o')) o.1 o'.1)
      let msgs := PS.extractMsgs (ω.2.1 (question o)) (f2 (question o')) o.1 o'.1 o.2 ys.length
      accepted ω.2.1 o ∧ PS.Valid x ys sig msgs ∧ (∀ i m, mapGet o.2 i = some m → msgs[i]? = some m) := by
  intro vk question accepted ε
  let win : PS.SigProof F S O × List (Nat × F) → F → Prop := fun o c => (o.2.map (·.1)).Nodup ∧ o.1.verify P vk o.2 c = .ok true
  have hacc : ∀ f o, accepted f o ↔ win o (f (question o)) := by
    intro f o
    simp only [accepted, win]
    rw [← hashOf_eq f (psBytes P cS cO vk o) ((psBytes_le P cS cO vk o).trans (by simpa [vk, keygen] using hL))]
    rfl
  have hε : ε = pr fun ω : R × (Query L → F) => win ((A ω.1).run ω.2) (ω.2 (question ((A ω.1).run ω.2))) := by
    simp only [ε, hacc]
  rw [hε]
  refine (forking question win A q hq).trans (pr_mono ?_)
  rintro ⟨ρ, f, f'⟩ ⟨h1, h2, h3, h4⟩
  refine ⟨(hacc _ _).2 h1, ?_⟩
  dsimp only at h1 h2 h3 h4 ⊢
  set o := (A ρ).run f
  set o' := (A ρ).run (second question (A ρ) f f')
  have hb : psBytes P cS cO vk o = psBytes P cS cO vk o' := congrArg Subtype.val h3
  have hl := congrArg List.length hb
  rw [psBytes_length, psBytes_length] at hl
  have hlen : (hiddenBases (fun i => (o.2.map (·.1)).contains i) 0 vk.Y).length = (hiddenBases (fun i => (o'.2.map (·.1)).contains i) 0 vk.Y).length := by
    have := Nat.eq_of_mul_eq_mul_right h0 (Nat.add_left_cancel hl)
    omega
  simp only [psBytes, PS.SigProof.bytesForChallenge, PS.Signature.toBytes, List.append_assoc] at hb
  have a1 := List.append_inj hb (by rw [cS.enc_length, cS.enc_length])
  have a2 := List.append_inj a1.2 (by rw [cS.enc_length, cS.enc_length])
  have a3 := List.append_inj a2.2 (by rw [cO.enc_length, cO.enc_length])
  have a4 := List.append_inj (List.append_cancel_left a3.2) (by rw [flatten_enc_length, flatten_enc_length, hlen])
  have hbases := encs_injective cO _ _ a4.1 hlen
  have hk : ∀ rev : List (Nat × F), hiddenBases (fun i => (rev.map (·.1)).contains i) 0 vk.Y = hiddenBases (fun i => (mapGet rev i).isSome) 0 vk.Y :=
    fun rev => BBS.hiddenBases_congr _ _ (fun j _ => BBS.contains_keys rev (0 + j))
  rw [hk, hk] at hbases
  obtain ⟨b1, b2, -⟩ := ps_pok_extract P hnd o.1 o'.1 x ys o.2 o'.2 _ _ h1.1 h2.1 hbases.symm h1.2 h2.2 h4 (cO.enc_injective a3.1) (cO.enc_injective a4.2)
  exact ⟨b1, b2⟩
end
end

/-! ## Concrete cases: honest provers are accepted with probability 1 -/

theorem pr_one {Ω : Type} [Fintype Ω] [Nonempty Ω] {P : Ω → Prop} (h : ∀ ω, P ω) : pr P = 1 := by
  classical
  unfold pr
  rw [Finset.filter_true_of_mem (fun ω _ => h ω), Finset.card_univ, div_self]
  exact Nat.cast_ne_zero.2 Fintype.card_ne_zero

/-- the bound for a prover that asks one question and is always accepted, over the field with 101 elements -/
theorem always_bound : (1 : ℚ) ^ 2 / ((1 : Nat) + 1) - 1 / (101 : Nat) = 99 / 202 := by norm_num

namespace Met
open Verif.Toy
local instance : Fact (Nat.Prime 101) := fact101
abbrev K := ZMod 101

/-- asks for the challenge of the presentation of the example of PS signatures, and answers it -/
noncomputable def psProver : Prover (Query 8) K (PS.SigProof K K K × List (Nat × K)) :=
  .ask ⟨psBytes PS.Toy.par codec101 codec101 PS.Toy.vk (PS.Toy.pf 0, [(1, 6)]), by decide +kernel⟩ (fun c => .out (PS.Toy.pf c, [(1, 6)]))

theorem ps_known_met :
    let question (o : PS.SigProof K K K × List (Nat × K)) : Query 8 :=
      ⟨psBytes PS.Toy.par codec101 codec101 PS.Toy.vk o, (psBytes_le PS.Toy.par codec101 codec101 PS.Toy.vk o).trans (by decide)⟩
    (99 / 202 : ℚ) ≤ pr fun ω : Unit × (Query 8 → K) × (Query 8 → K) =>
      let o := psProver.run ω.2.1
      let f2 := second question psProver ω.2.1 ω.2.2
      let o' := psProver.run f2
      let sig := PS.unblind o.1.sig (PS.extractT (ω.2.1 (question o)) (f2 (question o')) o.1 o'.1)
      let msgs := PS.extractMsgs (ω.2.1 (question o)) (f2 (question o')) o.1 o'.1 o.2 3
      PS.Valid 7 PS.Toy.ys sig msgs ∧ (∀ i m, BBS.mapGet o.2 i = some m → msgs[i]? = some m) := by
  intro question
  have h := ps_signature_known (R := Unit) PS.Toy.par PS.Toy.nondeg 7 PS.Toy.ys codec101 codec101 (by decide) 8 (by decide)
    (fun _ => psProver) 1 (fun _ c => trivial)
  have hacc : ∀ ω : Unit × (Query 8 → K), ((psProver.run ω.2).2.map (·.1)).Nodup ∧
      (psProver.run ω.2).1.verify PS.Toy.par PS.Toy.vk (psProver.run ω.2).2 (hashOf ω.2 ((psProver.run ω.2).1.bytesForChallenge PS.Toy.par
        codec101.enc codec101.enc ((psProver.run ω.2).2.map (·.1)) PS.Toy.vk)) = .ok true := by
    rintro ⟨-, f⟩
    refine ⟨by simp [psProver, Prover.run], ?_⟩
    have hf : hashOf f ((psProver.run f).1.bytesForChallenge PS.Toy.par codec101.enc codec101.enc ((psProver.run f).2.map (·.1)) PS.Toy.vk) =
        f ⟨psBytes PS.Toy.par codec101 codec101 PS.Toy.vk (PS.Toy.pf 0, [(1, 6)]), by decide +kernel⟩ := by
      exact hashOf_eq f (psBytes PS.Toy.par codec101 codec101 PS.Toy.vk (PS.Toy.pf 0, [(1, 6)])) (by decide +kernel)
    dsimp only
    rw [hf]
    exact PS.Toy.pf_ok _
  have h1 := pr_one hacc
  dsimp only at h
  rw [h1, ZMod.card, always_bound] at h
  exact h.trans (pr_mono fun ω hω => hω.2)

/-- the opening of `5 g₀ + 7 g₁` for the generators 3 and 11, with first message for the blindings 20 and 30 -/
def vcProver : Prover (Query 5) K (K × K × Proof K K) :=
  .ask ⟨vcBytes codec101 [3, 11] [1] ((92, 0, ⟨20 * 3 + 30 * 11, []⟩) : K × K × Proof K K), by decide +kernel⟩
    (fun c => .out (92, c, ⟨20 * 3 + 30 * 11, [20 - c * 5, 30 - c * 7]⟩))

theorem vc_always (f : Query 5 → K) :
    (vcProver.run f).2.2.verifyComplete codec101.enc (hashOf f) [3, 11] (vcProver.run f).1 (vcProver.run f).2.1 [1] = .ok true := by
  rw [verify_complete_iff]
  constructor
  · refine ((verify_iff _ _ _ _).2 (by simp [vcProver, Prover.run])).1.2 ?_
    simp only [vcProver, Prover.run, msm_cons, msm_nil, smul_eq_mul]
    ring_nf
  · symm
    exact hashOf_eq f (vcBytes codec101 [3, 11] [1] ((92, 0, ⟨20 * 3 + 30 * 11, []⟩) : K × K × Proof K K)) (by decide +kernel)

example := vector_commitment_known (R := Unit) codec101 ([3, 11] : List K) [1] 5 (by decide) (fun _ => vcProver) 1 (fun _ c => trivial)

/-- the presentation of the example of BBS+ signatures, which reveals message 0 -/
noncomputable def bbsProver : Prover (Query 11) K (BBS.SigProof K K) :=
  .ask ⟨presBytes BBS.Toy.par [0] BBS.Toy.key 9 (BBS.honestProof BBS.Toy.par BBS.Toy.sig BBS.Toy.key BBS.Toy.pms BBS.Toy.rnd 0), by decide +kernel⟩
    (fun c => .out (BBS.honestProof BBS.Toy.par BBS.Toy.sig BBS.Toy.key BBS.Toy.pms BBS.Toy.rnd c))

theorem bbs_always (f : Query 11 → K) :
    BBS.verifySignaturePok { BBS.Toy.par with hashFr := hashOf f } ⟨[0], BBS.Toy.key⟩ ⟨[(0, 4)], bbsProver.run f⟩ 9 = .ok [4] := by
  rw [BBS.verifySignaturePok_ok]
  refine ⟨rfl, ?_⟩
  exact BBS.honest_verifies BBS.Toy.par BBS.Toy.sig BBS.Toy.key BBS.Toy.pms BBS.Toy.rnd BBS.Toy.sig_ok (by decide) _

example := bbs_signature_known (R := Unit) BBS.Toy.par BBS.Toy.nondeg 7 BBS.Toy.key (by decide +kernel) [0] [(0, 4)] 9 11 (by decide)
  (fun _ => bbsProver) 1 (fun _ c => trivial)

/-- the context of the example of blind issuance, in which message 1 is hidden -/
noncomputable def ctxProver : Prover (Query 7) K (BBS.BlindCtx K K) :=
  .ask ⟨ctxBytes BBS.Toy.par [0, 2] BBS.Toy.key 9 ⟨12 * 2 + 6 * 5, 0, ⟨13 * 2 + 14 * 5, []⟩⟩, by decide +kernel⟩
    (fun c => .out ⟨12 * 2 + 6 * 5, c, ⟨13 * 2 + 14 * 5, [13 - c * 12, 14 - c * 6]⟩⟩)

theorem ctx_always (f : Query 7 → K) :
    (ctxProver.run f).verify { BBS.Toy.par with hashFr := hashOf f } [0, 2] BBS.Toy.key 9 = .ok true := by
  rw [BBS.ctx_verify_iff, verify_complete_iff]
  constructor
  · have hb : BBS.Toy.key.h0 :: BBS.hiddenBases (fun i => [0, 2].contains i) 0 BBS.Toy.key.h = [2, 5] := by decide +kernel
    rw [hb]
    refine ((verify_iff _ _ _ _).2 (by simp [ctxProver, Prover.run])).1.2 ?_
    simp only [ctxProver, Prover.run, msm_cons, msm_nil, smul_eq_mul]
    ring
  · symm
    exact hashOf_eq f (ctxBytes BBS.Toy.par [0, 2] BBS.Toy.key 9 ⟨12 * 2 + 6 * 5, 0, ⟨13 * 2 + 14 * 5, []⟩⟩) (by decide +kernel)

example := blind_messages_known (R := Unit) BBS.Toy.par 7 BBS.Toy.key [(0, 4), (2, 8)] (by simp [BBS.Sorted]) 9 7 (by decide)
  (fun _ => ctxProver) 1 (fun _ c => trivial)

end Met
end Verif.Forking
