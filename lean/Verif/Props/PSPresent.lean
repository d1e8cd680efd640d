import Verif.Props.PSForgery
import Verif.Props.ForkingEach
/-!
# Proofs of PS signatures cannot be forged without `X` of the blinding key (C213)

C198 and C210 put together: a signer signs what it is asked to; afterwards a proof is made, with questions to the hash function.  It wins if
the verifier accepts and no signed list of messages has the values that are revealed.
-/
set_option linter.unusedSectionVars false
set_option linter.unusedVariables false
set_option linter.unusedSimpArgs false
namespace Verif.PS.Forgery
open Verif Verif.PoK Verif.PS Verif.Forking
open Verif.BBS (hiddenBases mapGet)

/-- Somebody who has messages signed and makes a proof: what it orders next, and how it makes the proof and chooses what to reveal. -/
structure Presenter (K F S O : Type) (L : Nat) where
  ask : K → List (Res Error (Signature S)) → Order F S
  prove : K → List (Res Error (Signature S)) → Prover (Query L) F (SigProof F S O × List (Nat × F))

section
variable {F S O GT : Type} [Field F] [AddCommGroup S] [Module F S] [AddCommGroup O] [Module F O]
  [AddCommGroup GT] [Module F GT] [DecidableEq F] [DecidableEq S] [DecidableEq O] [DecidableEq GT]
variable (P : Params F S O GT) (cS : Codec S) (cO : Codec O)

/-- the presenter as a forger that orders the same and outputs `out` -/
def Presenter.orders {K : Type} {L : Nat} (A : Presenter K F S O L) (out : K → List (Res Error (Signature S)) → Signature S × List F) :
    Forger K F S := ⟨A.ask, out⟩

/-- The proof is accepted for a hash function `f`, and each signature that was issued is on messages that differ from the revealed ones at
a revealed place. -/
def Shows {K : Type} (see : Verkey O → BlindingKey S → K) (n q : Nat) {L : Nat} (A : Presenter K F S O L) (ω : Coins F n q) (f : Query L → F) : Prop :=
  let keys := keygen P ω.1 (List.ofFn ω.2.1)
  let k := see keys.1 (blindingKey P keys.2)
  let hist := session P (A.orders fun _ _ => (⟨0, 0⟩, [])) k keys.2 (SDH.ext ω.2.2)
  let o := (A.prove k (hist q)).run f
  (o.2.map (·.1)).Nodup ∧
  o.1.verify P keys.1 o.2 (hashOf f (o.1.bytesForChallenge P cS.enc cO.enc (o.2.map (·.1)) keys.1)) = .ok true ∧
    ∀ i < q, ∀ σ, answer P keys.2 (SDH.ext ω.2.2 i) (A.ask k (hist i)) = .ok σ →
      ∃ j < n, ∃ m, mapGet o.2 j = some m ∧ signed n j (A.ask k (hist i)) ≠ m

/-- what the verifier hashes -/
def questionOf (L : Nat) (vk : Verkey O) (o : SigProof F S O × List (Nat × F)) : Query L :=
  if h : (psBytes P cS cO vk o).length ≤ L then ⟨psBytes P cS cO vk o, h⟩ else ⟨[], Nat.zero_le _⟩

/-- The presenter, run a second time with other answers `f'` from the verifier's question on, makes a forger of signatures. -/
def rewound {L : Nat} (n : Nat) (A : Presenter (Verkey O × List S) F S O L) (f f' : Query L → F) : Forger (Verkey O × List S) F S :=
  A.orders fun pk l =>
    let B := A.prove pk l
    let question := questionOf P cS cO L pk.1
    let f2 := second question B f f'
    let o := B.run f
    let o' := B.run f2
    (unblind o.1.sig (extractT (f (question o)) (f2 (question o')) o.1 o'.1), extractMsgs (f (question o)) (f2 (question o')) o.1 o'.1 o.2 n)

theorem session_orders {K : Type} {L : Nat} (A : Presenter K F S O L) (out out' : K → List (Res Error (Signature S)) → Signature S × List F)
    (k : K) (sk : Sigkey F) (u : Nat → F) : ∀ m, session P (A.orders out) k sk u m = session P (A.orders out') k sk u m
  | 0 => rfl
  | m + 1 => by
    unfold session
    rw [session_orders A out out' k sk u m]
    rfl

/-- the key and the answers of a game -/
def seen (n q : Nat) (ω : Coins F n q) : Verkey O × List S :=
  seeY (keygen P ω.1 (List.ofFn ω.2.1)).1 (blindingKey P (keygen P ω.1 (List.ofFn ω.2.1)).2)

def histOf {n q L : Nat} (A : Presenter (Verkey O × List S) F S O L) (ω : Coins F n q) (m : Nat) : List (Res Error (Signature S)) :=
  session P (A.orders fun _ _ => (⟨0, 0⟩, [])) (seen P n q ω) (keygen P ω.1 (List.ofFn ω.2.1)).2 (SDH.ext ω.2.2) m

/-- no signed list of messages has the revealed values -/
def New {n q L : Nat} (A : Presenter (Verkey O × List S) F S O L) (ω : Coins F n q) (rev : List (Nat × F)) : Prop :=
  ∀ i < q, ∀ σ, answer P (keygen P ω.1 (List.ofFn ω.2.1)).2 (SDH.ext ω.2.2 i) (A.ask (seen P n q ω) (histOf P A ω i)) = .ok σ →
      ∃ j < n, ∃ m, mapGet rev j = some m ∧ signed n j (A.ask (seen P n q ω) (histOf P A ω i)) ≠ m

theorem bytes_le [Fintype F] {n q L : Nat} (hL : 2 * cS.size + (n + 3) * cO.size ≤ L) (ω : Coins F n q) (o : SigProof F S O × List (Nat × F)) :
    (psBytes P cS cO (seen P n q ω).1 o).length ≤ L :=
  (psBytes_le P cS cO (seen P n q ω).1 o).trans (by simpa [seen, seeY, keygen] using hL)

/-- two accepted runs make a forged signature -/
theorem rewound_wins [Fintype F] (hnd : Nondeg P) {n q L : Nat} (h0 : 0 < cO.size) (hL : 2 * cS.size + (n + 3) * cO.size ≤ L)
    (A : Presenter (Verkey O × List S) F S O L) (ω : Coins F n q) (f f' : Query L → F)
    (hf : Forks (questionOf P cS cO L (seen P n q ω).1)
      (fun o c => (o.2.map (·.1)).Nodup ∧ o.1.verify P (seen P n q ω).1 o.2 c = .ok true ∧ New P A ω o.2)
      (A.prove (seen P n q ω) (histOf P A ω q)) f f') :
    WinsEq P seeY n q (rewound P cS cO n A f f') ω := by
  obtain ⟨⟨n1, h1, hnew⟩, ⟨n2, h2, -⟩, h3, h4⟩ := hf
  have hsess : ∀ m, session P (rewound P cS cO n A f f') (seen P n q ω) (keygen P ω.1 (List.ofFn ω.2.1)).2 (SDH.ext ω.2.2) m = histOf P A ω m :=
    fun m => session_orders P A _ _ _ _ _ m
  have hle := bytes_le P cS cO hL ω
  set k := seen P n q ω with hk
  set l := histOf P A ω q with hl
  set o := (A.prove k l).run f with ho
  set f2 := second (questionOf P cS cO L k.1) (A.prove k l) f f' with hf2
  set o' := (A.prove k l).run f2 with ho'
  have hb : psBytes P cS cO k.1 o = psBytes P cS cO k.1 o' := by
    unfold questionOf at h3
    rw [dif_pos (hle _), dif_pos (hle _)] at h3
    exact congrArg Subtype.val h3
  have hl' := congrArg List.length hb
  rw [psBytes_length, psBytes_length] at hl'
  have hlen : (hiddenBases (fun i => (o.2.map (·.1)).contains i) 0 k.1.Y).length = (hiddenBases (fun i => (o'.2.map (·.1)).contains i) 0 k.1.Y).length := by
    have := Nat.eq_of_mul_eq_mul_right h0 (Nat.add_left_cancel hl')
    omega
  simp only [psBytes, PS.SigProof.bytesForChallenge, PS.Signature.toBytes, List.append_assoc] at hb
  have a1 := List.append_inj hb (by rw [cS.enc_length, cS.enc_length])
  have a2 := List.append_inj a1.2 (by rw [cS.enc_length, cS.enc_length])
  have a3 := List.append_inj a2.2 (by rw [cO.enc_length, cO.enc_length])
  have a4 := List.append_inj (List.append_cancel_left a3.2) (by rw [flatten_enc_length, flatten_enc_length, hlen])
  have hbases := encs_injective cO _ _ a4.1 hlen
  have hkk : ∀ rev : List (Nat × F), hiddenBases (fun i => (rev.map (·.1)).contains i) 0 k.1.Y = hiddenBases (fun i => (mapGet rev i).isSome) 0 k.1.Y :=
    fun rev => BBS.hiddenBases_congr _ _ (fun j _ => BBS.contains_keys rev (0 + j))
  rw [hkk, hkk] at hbases
  obtain ⟨b1, b2, -⟩ := ps_pok_extract P hnd o.1 o'.1 ω.1 (List.ofFn ω.2.1) o.2 o'.2 _ _ n1 n2 hbases.symm h1 h2 h4
    (cO.enc_injective a3.1) (cO.enc_injective a4.2)
  rw [List.length_ofFn] at b1 b2
  refine ⟨?_, ?_⟩
  · change Valid ω.1 (List.ofFn ω.2.1)
      ((rewound P cS cO n A f f').out k (session P (rewound P cS cO n A f f') k (keygen P ω.1 (List.ofFn ω.2.1)).2 (SDH.ext ω.2.2) q)).1
      ((rewound P cS cO n A f f').out k (session P (rewound P cS cO n A f f') k (keygen P ω.1 (List.ofFn ω.2.1)).2 (SDH.ext ω.2.2) q)).2
    rw [hsess q]
    exact b1
  · intro i hi σ hσ hm
    change answer P (keygen P ω.1 (List.ofFn ω.2.1)).2 (SDH.ext ω.2.2 i) (A.ask k
      (session P (rewound P cS cO n A f f') k (keygen P ω.1 (List.ofFn ω.2.1)).2 (SDH.ext ω.2.2) i)) = .ok σ at hσ
    change ∀ j < n, ((rewound P cS cO n A f f').out k
      (session P (rewound P cS cO n A f f') k (keygen P ω.1 (List.ofFn ω.2.1)).2 (SDH.ext ω.2.2) q)).2[j]? =
      some (signed n j (A.ask k (session P (rewound P cS cO n A f f') k (keygen P ω.1 (List.ofFn ω.2.1)).2 (SDH.ext ω.2.2) i))) at hm
    rw [hsess i] at hσ
    rw [hsess i, hsess q] at hm
    obtain ⟨j, hj, m, hj', hne⟩ := hnew i hi σ hσ
    have e1 := b2 j m hj'
    have e2 := hm j hj
    exact hne (Option.some.inj (e2.symm.trans e1))

variable {R : Type} [Fintype R] [Fintype F]

/-- **C213** Whoever makes accepted proofs of PS signatures that reveal values which nobody has had signed together, from the verification
key and the `Y` of the blinding key, with probability `ε` after `q` orders and with `h` questions to the hash function, gives a
solver of the problem with one message (C210) with probability at least `ε² / (h + 1) - ε / |F| - q / |F|`. -/
theorem proofs_unforgeable (hnd : Nondeg P) (n q h L : Nat) (h0 : 0 < cO.size) (hL : 2 * cS.size + (n + 3) * cO.size ≤ L)
    (A : R → Presenter (Verkey O × List S) F S O L) (hA : ∀ ρ pk l, Opens P pk.2 ((A ρ).ask pk l))
    (hq : ∀ ρ pk l, ((A ρ).prove pk l).AtMost h) :
    let ε := pr fun ω : (R × Coins F n q) × (Query L → F) => Shows P cS cO seeY n q (A ω.1.1) ω.1.2 ω.2
    ε ^ 2 / (h + 1) - ε / Fintype.card F ≤
      (pr fun ω : (R × (Query L → F) × (Query L → F)) × Coins1 F n q =>
        Solves P q (solver P n (rewound P cS cO n (A ω.1.1) ω.1.2.1 ω.1.2.2) ω.2.2.2.1 ω.2.2.2.2.1) ω.2.1 ω.2.2.1 ω.2.2.2.2.2) +
      q / Fintype.card F := by
  intro ε
  let str (c : R × Coins F n q) : SigProof F S O × List (Nat × F) → Query L := questionOf P cS cO L (seen P n q c.2).1
  let win (c : R × Coins F n q) : SigProof F S O × List (Nat × F) → F → Prop := fun o y =>
    (o.2.map (·.1)).Nodup ∧ o.1.verify P (seen P n q c.2).1 o.2 y = .ok true ∧ New P (A c.1) c.2 o.2
  let B (c : R × Coins F n q) : Prover (Query L) F (SigProof F S O × List (Nat × F)) := (A c.1).prove (seen P n q c.2) (histOf P (A c.1) c.2 q)
  have h1 := forking_each str win B h (fun c => hq _ _ _)
  dsimp only at h1
  have hshow : ∀ (c : R × Coins F n q) (f : Query L → F), Shows P cS cO seeY n q (A c.1) c.2 f ↔ win c ((B c).run f) (f (str c ((B c).run f))) := by
    rintro ⟨ρ, ω⟩ f
    have hstr : ∀ o, f (str (ρ, ω) o) = hashOf f (o.1.bytesForChallenge P cS.enc cO.enc (o.2.map (·.1)) (keygen P ω.1 (List.ofFn ω.2.1)).1) := by
      intro o
      have := hashOf_eq f (psBytes P cS cO (seen P n q ω).1 o) (bytes_le P cS cO hL ω o)
      refine Eq.trans ?_ this.symm
      simp only [str, questionOf]
      rw [dif_pos (bytes_le P cS cO hL ω o)]
    simp only [win]
    rw [hstr]
    exact Iff.rfl
  have hε : ε = pr fun ω : (R × Coins F n q) × (Query L → F) => win ω.1 ((B ω.1).run ω.2) (ω.2 (str ω.1 ((B ω.1).run ω.2))) := by
    simp only [ε, hshow]
  rw [← hε] at h1
  refine h1.trans ?_
  have h2 : (pr fun ω : (R × Coins F n q) × (Query L → F) × (Query L → F) => Forks (str ω.1) (win ω.1) (B ω.1) ω.2.1 ω.2.2) ≤
      pr fun ω : (R × Coins F n q) × (Query L → F) × (Query L → F) => WinsEq P seeY n q (rewound P cS cO n (A ω.1.1) ω.2.1 ω.2.2) ω.1.2 :=
    pr_mono fun ω hω => rewound_wins P cS cO hnd h0 hL (A ω.1.1) ω.1.2 ω.2.1 ω.2.2 hω
  have hb : Function.Bijective fun ω : (R × Coins F n q) × (Query L → F) × (Query L → F) =>
      (((ω.1.1, ω.2.1, ω.2.2), ω.1.2) : (R × (Query L → F) × (Query L → F)) × Coins F n q) :=
    Function.bijective_iff_has_inverse.2 ⟨fun ω => ((ω.1.1, ω.2), ω.1.2.1, ω.1.2.2), fun _ => rfl, fun _ => rfl⟩
  have h3 := pr_bijective _ hb (fun z : (R × (Query L → F) × (Query L → F)) × Coins F n q =>
    WinsEq P seeY n q (rewound P cS cO n (A z.1.1) z.1.2.1 z.1.2.2) z.2)
  refine h2.trans (le_of_eq_of_le h3 ?_)
  have h4 := pr_each (fun (c : R × (Query L → F) × (Query L → F)) (ω : Coins F n q) => WinsEq P seeY n q (rewound P cS cO n (A c.1) c.2.1 c.2.2) ω)
    (fun c (κ : Coins1 F n q) => Solves P q (solver P n (rewound P cS cO n (A c.1) c.2.1 c.2.2) κ.2.2.1 κ.2.2.2.1) κ.1 κ.2.1 κ.2.2.2.2)
    (fun c (_ : Unit) => False) (q / Fintype.card F) (by positivity) fun c => by
      rw [pr_false (fun _ : Unit => False) fun _ h => h, add_zero]
      exact unforgeable_eq P hnd n q (rewound P cS cO n (A c.1) c.2.1 c.2.2) fun pk l => hA c.1 pk l
  rw [pr_false (fun z : (R × (Query L → F) × (Query L → F)) × Unit => False) fun _ h => h, add_zero] at h4
  exact h4

end

namespace Met
open Verif.Toy Verif.PS.Toy
local instance : Fact (Nat.Prime 101) := fact101

/-- the forger of C210 makes a proof of its signature and reveals the first message -/
def shower : Presenter (Verkey K × List K) K K K 7 where
  ask := insider.ask
  prove := fun pk l => .ask (questionOf par codec101 codec101 7 pk.1 (honest par (insider.out pk l).1 pk.1 [1, 1] [0] 2 0 13 [17] 0, [(0, 1)]))
    (fun c => .out (honest par (insider.out pk l).1 pk.1 [1, 1] [0] 2 0 13 [17] c, [(0, 1)]))

theorem disclosed : Discloses ([1, 1] : List K) [0] [(0, 1)] := by
  refine ⟨by simp, by simp, ?_⟩
  intro i m h
  rw [BBS.mapGet_cons] at h
  by_cases e : 0 = i
  · subst e; simp at h; simp [h]
  · rw [if_neg e, BBS.mapGet_nil] at h; cases h

theorem shower_wins (ω : Coins K 2 1) (f : Query 7 → K) (h : ω.1 + dot (List.ofFn ω.2.1) [1, 1] ≠ 0) :
    Shows par codec101 codec101 seeY 2 1 shower ω f := by
  obtain ⟨hver, -⟩ := insider_wins ω h
  refine ⟨by simp [shower, Prover.run], ?_, ?_⟩
  · obtain ⟨h1, h2, h3, h4⟩ := (verify_true_pairing par _ _ _).1 hver
    simp only [shower, Prover.run]
    refine (ps_honest_iff par _ _ [1, 1] [0] [(0, 1)] 2 0 13 [17] _ (by simp) (by simp) ?_ disclosed rfl).2 ⟨?_, ?_, ?_⟩
    · exact h3
    · exact smul_ne_zero (by decide) h1
    · exact smul_ne_zero (by decide) (by rw [zero_smul, add_zero]; exact h2)
    · exact h4
  · intro i hi σ hσ
    refine ⟨0, by omega, 1, rfl, ?_⟩
    change (5 + 0 : K) ≠ 1
    decide +kernel

/-- the bound is not void -/
theorem proof_reduction_succeeds : 2 / 5 <
    pr fun ω : (Unit × (Query 7 → K) × (Query 7 → K)) × Coins1 K 2 1 =>
        Solves par 1 (solver par 2 (rewound par codec101 codec101 2 shower ω.1.2.1 ω.1.2.2) ω.2.2.2.1 ω.2.2.2.2.1) ω.2.1 ω.2.2.1 ω.2.2.2.2.2 := by
  have h := proofs_unforgeable (R := Unit) par codec101 codec101 nondeg 2 1 1 7 (by decide) (by decide) (fun _ => shower) (fun _ pk l => opens pk l)
    (fun _ _ _ _ => trivial)
  dsimp only at h
  have hu : 100 / 101 ≤ pr fun ω : (Unit × Coins K 2 1) × (Query 7 → K) => Shows par codec101 codec101 seeY 2 1 shower ω.1.2 ω.2 := by
    have h1 := pr_not_ge (fun ω : Coins K 2 1 => ω.1 + dot (List.ofFn ω.2.1) [1, 1] = 0)
    have h2 : pr (fun ω : Coins K 2 1 => ω.1 + dot (List.ofFn ω.2.1) [1, 1] = 0) ≤ 1 / Fintype.card K := by
      refine SDH.pr_line _ (fun ω v => (v, ω.2)) ?_
      rintro ⟨x, r⟩ ⟨x', r'⟩ ha hb v v' hab
      dsimp only at ha hb hab
      obtain ⟨rfl, rfl⟩ := Prod.mk.inj hab
      rw [eq_neg_of_add_eq_zero_left ha, eq_neg_of_add_eq_zero_left hb]
      exact ⟨rfl, rfl⟩
    rw [ZMod.card] at h2
    refine le_trans (b := pr fun ω : Coins K 2 1 => ¬ ω.1 + dot (List.ofFn ω.2.1) [1, 1] = 0) (by norm_num only at h2; linarith) ?_
    have hb : Function.Bijective fun ω : (Unit × Coins K 2 1) × (Query 7 → K) => ((ω.1.2, ω.2) : Coins K 2 1 × (Query 7 → K)) :=
      Function.bijective_iff_has_inverse.2 ⟨fun ω => (((), ω.1), ω.2), fun _ => rfl, fun _ => rfl⟩
    rw [← pr_fst (B := Query 7 → K), ← pr_bijective _ hb]
    exact pr_mono fun ω hω => shower_wins _ _ hω
  generalize (pr fun ω : (Unit × Coins K 2 1) × (Query 7 → K) => Shows par codec101 codec101 seeY 2 1 shower ω.1.2 ω.2) = ε at h hu
  rw [ZMod.card] at h
  norm_num at h
  nlinarith

end Met
end Verif.PS.Forgery
