import Verif.Props.BBSForgery
import Verif.Props.ForkingEach
/-!
# BBS+ presentations cannot be forged if the strong Diffie-Hellman problem is hard (C212)

C198 and C208 put together: an issuer signs what it is asked to, directly or blindly; then a verifier sends a fresh nonce, and the holder (or
several holders together) makes a presentation, asking the hash function as often as it likes.  It wins if the verifier accepts and no
signed list of messages has the values that are revealed.
-/
set_option linter.unusedSectionVars false
set_option linter.unusedVariables false
set_option linter.unusedSimpArgs false
namespace Verif.BBS.Forgery
open Verif Verif.PoK Verif.BBS Verif.Forking

/-- Somebody who has messages signed and makes a presentation: what it orders next, which messages it reveals and with which values, and how
it makes the proof, once the nonce is known. -/
structure Presenter (F G1 G2 : Type) (L : Nat) where
  ask : PublicKey G1 G2 → List (Res Error (Signature F G1)) → Order F G1
  asked : PublicKey G1 G2 → List (Res Error (Signature F G1)) → List Nat
  revealed : PublicKey G1 G2 → List (Res Error (Signature F G1)) → List (Nat × F)
  prove : PublicKey G1 G2 → List (Res Error (Signature F G1)) → F → Prover (Query L) F (SigProof F G1)

section
variable {F G1 G2 GT : Type} [Field F] [AddCommGroup G1] [Module F G1] [AddCommGroup G2] [Module F G2]
  [AddCommGroup GT] [Module F GT] [DecidableEq F] [DecidableEq G1] [DecidableEq G2] [DecidableEq GT]
variable (P : Params F G1 G2 GT)

/-- the presenter as a forger that orders the same and outputs `out` -/
def Presenter.orders {L : Nat} (A : Presenter F G1 G2 L) (out : PublicKey G1 G2 → List (Res Error (Signature F G1)) → Signature F G1 × List F) :
    Forger F G1 G2 := ⟨A.ask, out⟩

/-- The presentation is accepted by `verify_signature_pok`, for the nonce of the verifier and a hash function `f`, and each signature that was
issued is on messages that differ from the revealed ones at a revealed place. -/
def Shows (n q : Nat) {L : Nat} (A : Presenter F G1 G2 L) (ω : Coins F G1 n q) (nonce : F) (f : Query L → F) : Prop :=
  ∃ pk x, generate P n ω.1 (ω.2.1 none :: List.ofFn fun i => ω.2.1 (some i)) = .ok (pk, x) ∧
    let hist := session P (A.orders fun _ _ => (⟨0, 0, 0⟩, [])) pk x (SDH.ext ω.2.2.1) (SDH.ext ω.2.2.2)
    let rev := A.revealed pk (hist q)
    let p := (A.prove pk (hist q) nonce).run f
    verifySignaturePok { P with hashFr := hashOf f } ⟨A.asked pk (hist q), pk⟩ ⟨rev, p⟩ nonce = .ok (rev.map (·.2)) ∧
    ∀ i < q, ∀ σ, answer P pk x (SDH.ext ω.2.2.1 i) (SDH.ext ω.2.2.2 i) (A.ask pk (hist i)) = .ok σ →
      ∃ j < n, ∃ m, mapGet rev j = some m ∧ signed j (A.ask pk (hist i)) ≠ m

/-- what the verifier hashes -/
def questionOf (L : Nat) (asked : List Nat) (pk : PublicKey G1 G2) (nonce : F) (p : SigProof F G1) : Query L :=
  if h : (presBytes P asked pk nonce p).length ≤ L then ⟨presBytes P asked pk nonce p, h⟩ else ⟨[], Nat.zero_le _⟩

theorem accepted_iff [Fintype F] {L : Nat} (f : Query L → F) (asked : List Nat) (pk : PublicKey G1 G2) (rev : List (Nat × F)) (p : SigProof F G1) (nonce : F)
    (hL : (pk.h.length + 7) * P.encG1.size + P.encF.size ≤ L) :
    verifySignaturePok { P with hashFr := hashOf f } ⟨asked, pk⟩ ⟨rev, p⟩ nonce = .ok (rev.map (·.2)) ↔
      p.verify P pk rev (f (questionOf P L asked pk nonce p)) = .ok .success := by
  have hle : (presBytes P asked pk nonce p).length ≤ L := (presBytes_length _ _ _ _ _).trans hL
  have h0 := verifySignaturePok_ok { P with hashFr := hashOf f } ⟨asked, pk⟩ ⟨rev, p⟩ nonce (rev.map (·.2))
  refine h0.trans ?_
  have hstr : f (questionOf P L asked pk nonce p) = hashOf f (presBytes P asked pk nonce p) := by
    rw [hashOf_eq f _ hle, questionOf, dif_pos hle]
  rw [hstr]
  exact ⟨fun h => h.2, fun h => ⟨rfl, h⟩⟩

/-- The presenter, run a second time with other answers `f'` from the verifier's question on, makes a forger of signatures. -/
def rewound {L : Nat} (A : Presenter F G1 G2 L) (nonce : F) (f f' : Query L → F) : Forger F G1 G2 :=
  A.orders fun pk l =>
    let B := A.prove pk l nonce
    let question := questionOf P L (A.asked pk l) pk nonce
    let f2 := second question B f f'
    let p := B.run f
    let p' := B.run f2
    (extractSig (f (question p)) (f2 (question p')) p p', extractMsgs (f (question p)) (f2 (question p')) p p' (A.revealed pk l) pk.h.length)

theorem session_orders {L : Nat} (A : Presenter F G1 G2 L) (out out' : PublicKey G1 G2 → List (Res Error (Signature F G1)) → Signature F G1 × List F)
    (pk : PublicKey G1 G2) (x : F) (e s : Nat → F) : ∀ m, session P (A.orders out) pk x e s m = session P (A.orders out') pk x e s m
  | 0 => rfl
  | m + 1 => by
    unfold session
    rw [session_orders A out out' pk x e s m]
    rfl

theorem generate_length {n : Nat} {x : F} {h0 : G1} {hs : List G1} {pk : PublicKey G1 G2} {x' : F} (h : generate P n x (h0 :: hs) = .ok (pk, x')) :
    pk.h = hs := by
  unfold generate at h
  split at h
  · exact absurd h (by simp)
  obtain ⟨hpk, hx⟩ := Prod.mk.inj (Res.ok.inj h)
  rw [← hpk]

theorem pok_wellFormed (p : SigProof F G1) (pk : PublicKey G1 G2) (rev : List (Nat × F)) (c : F) (h : p.verify P pk rev c = .ok .success) :
    WellFormed pk := by
  rw [pok_verify_iff] at h
  exact h.1

/-- the key and the answers of a game -/
def keyOf (n q : Nat) (ω : Coins F G1 n q) : PublicKey G1 G2 := ⟨ω.2.1 none, List.ofFn fun i => ω.2.1 (some i), ω.1 • P.g2⟩

def histOf {n q L : Nat} (A : Presenter F G1 G2 L) (ω : Coins F G1 n q) (m : Nat) : List (Res Error (Signature F G1)) :=
  session P (A.orders fun _ _ => (⟨0, 0, 0⟩, [])) (keyOf P n q ω) ω.1 (SDH.ext ω.2.2.1) (SDH.ext ω.2.2.2) m

theorem generate_key {n q : Nat} (ω : Coins F G1 n q) {pk : PublicKey G1 G2} {x : F}
    (h : generate P n ω.1 (ω.2.1 none :: List.ofFn fun i => ω.2.1 (some i)) = .ok (pk, x)) : pk = keyOf P n q ω ∧ x = ω.1 := by
  unfold generate at h
  split at h
  · exact absurd h (by simp)
  obtain ⟨hpk, hx⟩ := Prod.mk.inj (Res.ok.inj h)
  exact ⟨hpk.symm, hx.symm⟩

/-- two accepted runs make a forged signature -/
theorem rewound_wins [Fintype F] (hnd : Nondeg P) {n q L : Nat} (hL : (n + 7) * P.encG1.size + P.encF.size ≤ L) (A : Presenter F G1 G2 L)
    (ω : Coins F G1 n q) (nonce : F) (f f' : Query L → F)
    (hf : Forks (questionOf P L (A.asked (keyOf P n q ω) (histOf P A ω q)) (keyOf P n q ω) nonce)
      (fun p c => (∃ pk x, generate P n ω.1 (ω.2.1 none :: List.ofFn fun i => ω.2.1 (some i)) = .ok (pk, x)) ∧
        p.verify P (keyOf P n q ω) (A.revealed (keyOf P n q ω) (histOf P A ω q)) c = .ok .success ∧
        ∀ i < q, ∀ σ, answer P (keyOf P n q ω) ω.1 (SDH.ext ω.2.2.1 i) (SDH.ext ω.2.2.2 i) (A.ask (keyOf P n q ω) (histOf P A ω i)) = .ok σ →
          ∃ j < n, ∃ m, mapGet (A.revealed (keyOf P n q ω) (histOf P A ω q)) j = some m ∧
            signed j (A.ask (keyOf P n q ω) (histOf P A ω i)) ≠ m)
      (A.prove (keyOf P n q ω) (histOf P A ω q) nonce) f f') :
    WinsEq P n q (rewound P A nonce f f') ω := by
  obtain ⟨⟨⟨pk, x, hgen⟩, h1, hnew⟩, ⟨-, h2, -⟩, h3, h4⟩ := hf
  obtain ⟨hpk, hx⟩ := generate_key P ω hgen
  have hlen : (keyOf P n q ω).h.length = n := List.length_ofFn
  set K := keyOf P n q ω with hK
  set l := histOf P A ω q with hl
  set o := (A.prove K l nonce).run f with ho
  set f2 := second (questionOf P L (A.asked K l) K nonce) (A.prove K l nonce) f f' with hf2
  set o' := (A.prove K l nonce).run f2 with ho'
  have hb : presBytes P (A.asked K l) K nonce o = presBytes P (A.asked K l) K nonce o' := by
    have hle : ∀ p, (presBytes P (A.asked K l) K nonce p).length ≤ L := fun p => (presBytes_length _ _ _ _ _).trans (by rw [hlen]; exact hL)
    unfold questionOf at h3
    rw [dif_pos (hle _), dif_pos (hle _)] at h3
    exact congrArg Subtype.val h3
  have enc : ∀ a b : G1, (P.encG1.enc a).length = (P.encG1.enc b).length := fun a b => by rw [P.encG1.enc_length, P.encG1.enc_length]
  simp only [presBytes, BBS.SigProof.bytesForChallenge, List.append_assoc] at hb
  have a1 := List.append_inj hb (enc _ _)
  have a2 := List.append_inj a1.2 (enc _ _)
  have a3 := List.append_inj (List.append_cancel_left a2.2) (enc _ _)
  have a4 := List.append_inj a3.2 (enc _ _)
  have a5 := List.append_inj (List.append_cancel_left (List.append_cancel_left a4.2)) (enc _ _)
  have hs := BBS.bbs_pok_sound P hnd o o' K ω.1 (A.revealed K l) _ _ rfl h1 h2 h4 (P.encG1.enc_injective a2.1) (P.encG1.enc_injective a1.1)
    (P.encG1.enc_injective a4.1) (P.encG1.enc_injective a3.1) (P.encG1.enc_injective a5.1)
  obtain ⟨hv, hrev, -, -⟩ := hs
  refine ⟨K, ω.1, by rw [hgen, hpk, hx], pok_wellFormed P _ _ _ _ h1, ?_⟩
  have hsess : ∀ m, session P (rewound P A nonce f f') K ω.1 (SDH.ext ω.2.2.1) (SDH.ext ω.2.2.2) m = histOf P A ω m :=
    fun m => session_orders P A _ _ K ω.1 _ _ m
  dsimp only
  rw [hsess q]
  refine ⟨hv, ?_⟩
  intro i hi σ hσ
  rw [hsess i] at hσ ⊢
  rintro ⟨-, hm⟩
  obtain ⟨j, hj, m, hj', hne⟩ := hnew i hi σ hσ
  have e1 := hrev j m hj' (by rw [hlen]; exact hj)
  have e2 := hm j hj
  exact hne (Option.some.inj (e2.symm.trans e1))

variable {R : Type} [Fintype R] [Fintype F] [Fintype G1]

/-- **C212** Whoever makes accepted presentations of BBS+ signatures that reveal values which nobody has had signed together, with probability
`ε` against a fresh key, after `q` orders and with `h` questions to the hash function, gives a solver of the strong Diffie-Hellman problem:
`Solves1` and `Solves2` for the forger `rewound` have probabilities that add up to at least
`ε² / (h + 1) - ε / |F| - (q + 1)(q + 2) / |F|`. -/
theorem presentations_unforgeable (hnd : Nondeg P) (hg : Function.Bijective fun c : F => c • P.g1) (n q h L : Nat)
    (hL : (n + 7) * P.encG1.size + P.encF.size ≤ L) (A : R → Presenter F G1 G2 L) (hA : ∀ ρ pk l, Opens pk ((A ρ).ask pk l))
    (hq : ∀ ρ pk l nonce, ((A ρ).prove pk l nonce).AtMost h) :
    let ε := pr fun ω : (R × Coins F G1 n q × F) × (Query L → F) => Shows P n q (A ω.1.1) ω.1.2.1 ω.1.2.2 ω.2
    ε ^ 2 / (h + 1) - ε / Fintype.card F ≤
      (pr fun ω : (R × F × (Query L → F) × (Query L → F)) × F × SDH.Coins1 F (Fin n) q =>
        SDH.Solves1 P.g1 P.g2 q (player P n (rewound P (A ω.1.1) ω.1.2.1 ω.1.2.2.1 ω.1.2.2.2)) ω.2) +
      (pr fun ω : (R × F × (Query L → F) × (Query L → F)) × F × SDH.Coins2 F (Fin n) q =>
        SDH.Solves2 P.g1 P.g2 q (player P n (rewound P (A ω.1.1) ω.1.2.1 ω.1.2.2.1 ω.1.2.2.2)) ω.2) +
      (q + 1) * (q + 2) / Fintype.card F := by
  intro ε
  let str (c : R × Coins F G1 n q × F) : SigProof F G1 → Query L :=
    questionOf P L ((A c.1).asked (keyOf P n q c.2.1) (histOf P (A c.1) c.2.1 q)) (keyOf P n q c.2.1) c.2.2
  let win (c : R × Coins F G1 n q × F) : SigProof F G1 → F → Prop := fun p y =>
    (∃ pk x, generate P n c.2.1.1 (c.2.1.2.1 none :: List.ofFn fun i => c.2.1.2.1 (some i)) = .ok (pk, x)) ∧
        p.verify P (keyOf P n q c.2.1) ((A c.1).revealed (keyOf P n q c.2.1) (histOf P (A c.1) c.2.1 q)) y = .ok .success ∧
        ∀ i < q, ∀ σ, answer P (keyOf P n q c.2.1) c.2.1.1 (SDH.ext c.2.1.2.2.1 i) (SDH.ext c.2.1.2.2.2 i)
          ((A c.1).ask (keyOf P n q c.2.1) (histOf P (A c.1) c.2.1 i)) = .ok σ →
          ∃ j < n, ∃ m, mapGet ((A c.1).revealed (keyOf P n q c.2.1) (histOf P (A c.1) c.2.1 q)) j = some m ∧
            signed j ((A c.1).ask (keyOf P n q c.2.1) (histOf P (A c.1) c.2.1 i)) ≠ m
  let B (c : R × Coins F G1 n q × F) : Prover (Query L) F (SigProof F G1) :=
    (A c.1).prove (keyOf P n q c.2.1) (histOf P (A c.1) c.2.1 q) c.2.2
  have h1 := forking_each str win B h (fun c => hq _ _ _ _)
  dsimp only at h1
  have hshow : ∀ (c : R × Coins F G1 n q × F) (f : Query L → F), Shows P n q (A c.1) c.2.1 c.2.2 f ↔ win c ((B c).run f) (f (str c ((B c).run f))) := by
    rintro ⟨ρ, ω, nonce⟩ f
    have hacc : ∀ p : SigProof F G1, verifySignaturePok { P with hashFr := hashOf f } ⟨(A ρ).asked (keyOf P n q ω) (histOf P (A ρ) ω q), keyOf P n q ω⟩
        ⟨(A ρ).revealed (keyOf P n q ω) (histOf P (A ρ) ω q), p⟩ nonce = .ok (((A ρ).revealed (keyOf P n q ω) (histOf P (A ρ) ω q)).map (·.2)) ↔
        p.verify P (keyOf P n q ω) ((A ρ).revealed (keyOf P n q ω) (histOf P (A ρ) ω q)) (f (str (ρ, ω, nonce) p)) = .ok .success := by
      intro p
      exact accepted_iff P f _ _ _ p nonce (by rw [show (keyOf P n q ω).h.length = n from List.length_ofFn]; exact hL)
    constructor
    · rintro ⟨pk, x, hgen, hv, hn⟩
      obtain ⟨rfl, rfl⟩ := generate_key P ω hgen
      exact ⟨⟨_, _, hgen⟩, (hacc _).1 hv, hn⟩
    · rintro ⟨⟨pk, x, hgen⟩, hv, hn⟩
      obtain ⟨rfl, rfl⟩ := generate_key P ω hgen
      exact ⟨_, _, hgen, (hacc _).2 hv, hn⟩
  have hε : ε = pr fun ω : (R × Coins F G1 n q × F) × (Query L → F) => win ω.1 ((B ω.1).run ω.2) (ω.2 (str ω.1 ((B ω.1).run ω.2))) := by
    simp only [ε, hshow]
  rw [← hε] at h1
  refine h1.trans ?_
  have h2 : (pr fun ω : (R × Coins F G1 n q × F) × (Query L → F) × (Query L → F) => Forks (str ω.1) (win ω.1) (B ω.1) ω.2.1 ω.2.2) ≤
      pr fun ω : (R × Coins F G1 n q × F) × (Query L → F) × (Query L → F) => WinsEq P n q (rewound P (A ω.1.1) ω.1.2.2 ω.2.1 ω.2.2) ω.1.2.1 :=
    pr_mono fun ω hω => rewound_wins P hnd hL (A ω.1.1) ω.1.2.1 ω.1.2.2 ω.2.1 ω.2.2 hω
  have hb : Function.Bijective fun ω : (R × Coins F G1 n q × F) × (Query L → F) × (Query L → F) =>
      (((ω.1.1, ω.1.2.2, ω.2.1, ω.2.2), ω.1.2.1) : (R × F × (Query L → F) × (Query L → F)) × Coins F G1 n q) :=
    Function.bijective_iff_has_inverse.2 ⟨fun ω => ((ω.1.1, ω.2, ω.1.2.1), ω.1.2.2.1, ω.1.2.2.2), fun _ => rfl, fun _ => rfl⟩
  have h3 := pr_bijective _ hb (fun z : (R × F × (Query L → F) × (Query L → F)) × Coins F G1 n q =>
    WinsEq P n q (rewound P (A z.1.1) z.1.2.1 z.1.2.2.1 z.1.2.2.2) z.2)
  refine h2.trans (le_of_eq_of_le h3 ?_)
  exact pr_each (fun (c : R × F × (Query L → F) × (Query L → F)) (ω : Coins F G1 n q) => WinsEq P n q (rewound P (A c.1) c.2.1 c.2.2.1 c.2.2.2) ω)
    (fun c ω => SDH.Solves1 P.g1 P.g2 q (player P n (rewound P (A c.1) c.2.1 c.2.2.1 c.2.2.2)) ω)
    (fun c ω => SDH.Solves2 P.g1 P.g2 q (player P n (rewound P (A c.1) c.2.1 c.2.2.1 c.2.2.2)) ω) _
    (by positivity) fun c => unforgeable_eq P hnd hg n q (rewound P (A c.1) c.2.1 c.2.2.1 c.2.2.2) fun pk l => hA c.1 pk l

end

namespace Met
open Verif.Toy Verif.BBS.Toy
local instance : Fact (Nat.Prime 101) := fact101

abbrev K := ZMod 101

/-- the forger of C208 shows the signature it has made -/
def shower : Presenter K K K 9 where
  ask := insider.ask
  asked := fun _ _ => [0]
  revealed := fun _ _ => [(0, 1)]
  prove := fun pk l nonce => .ask (questionOf par 9 [0] pk nonce (honestProof par (insider.out pk l).1 pk [.revealed 1] rnd 0))
    (fun c => .out (honestProof par (insider.out pk l).1 pk [.revealed 1] rnd c))

theorem shower_wins (ω : Coins K K 1 1) (nonce : K) (f : Query 9 → K) (h : ¬ ((((ω.1 = 0 ∨ ω.1 = -1) ∨ ω.2.1 none = 0) ∨ ω.2.1 (some 0) = 0) ∨
    ω.2.1 none = -1 - ω.2.1 (some 0))) : Shows par 1 1 shower ω nonce f := by
  push Not at h
  obtain ⟨⟨⟨⟨a, b⟩, c⟩, d⟩, e⟩ := h
  have hw := insider_wins ω a c d (fun h => b (eq_neg_of_add_eq_zero_left h)) (fun h => e (by linear_combination h))
  obtain ⟨pk, x, hgen, hver, -⟩ := hw
  refine ⟨pk, x, hgen, ?_, ?_⟩
  · have hlen : pk.h.length = 1 := by rw [generate_length par hgen]; rfl
    dsimp only
    rw [accepted_iff par f _ _ _ _ _ (by rw [hlen]; decide)]
    have hv : ((insider.out pk (session par insider pk x (SDH.ext ω.2.2.1) (SDH.ext ω.2.2.2) 1)).1).verify par
        (([.revealed 1] : List (ProofMessage K)).map (·.get)) pk = .ok true := hver
    exact honest_verifies par (insider.out pk (session par insider pk x (SDH.ext ω.2.2.1) (SDH.ext ω.2.2.2) 1)).1 pk [.revealed 1] rnd hv
      (by decide) _
  · intro i hi σ hσ
    refine ⟨0, by omega, 1, rfl, ?_⟩
    generalize session par (shower.orders fun _ _ => (⟨0, 0, 0⟩, [])) pk x (SDH.ext ω.2.2.1) (SDH.ext ω.2.2.2) i = l
    change signed 0 (insider.ask pk l) ≠ 1
    dsimp only [insider]
    cases hc : newBlindCtx par pk [(0, 5)] 9 4 6 [8] with
    | ok c =>
      change (5 + 0 : K) ≠ 1
      decide +kernel
    | err e =>
      change (0 : K) ≠ 1
      decide +kernel
    | panic =>
      change (0 : K) ≠ 1
      decide +kernel

/-- the bound is not void: the two reductions together solve the problem with probability more than a third -/
theorem presentation_reduction_succeeds : 1 / 3 <
    (pr fun ω : (Unit × K × (Query 9 → K) × (Query 9 → K)) × K × SDH.Coins1 K (Fin 1) 1 =>
        SDH.Solves1 par.g1 par.g2 1 (player par 1 (rewound par shower ω.1.2.1 ω.1.2.2.1 ω.1.2.2.2)) ω.2) +
      (pr fun ω : (Unit × K × (Query 9 → K) × (Query 9 → K)) × K × SDH.Coins2 K (Fin 1) 1 =>
        SDH.Solves2 par.g1 par.g2 1 (player par 1 (rewound par shower ω.1.2.1 ω.1.2.2.1 ω.1.2.2.2)) ω.2) := by
  have hbij : Function.Bijective fun c : K => c • par.g1 := by
    have : (fun c : K => c • par.g1) = id := funext fun c => by change c • (1 : K) = c; rw [smul_eq_mul, mul_one]
    rw [this]
    exact Function.bijective_id
  have h := presentations_unforgeable (R := Unit) par nondeg hbij 1 1 1 9 (by decide) (fun _ => shower) (fun _ pk l => opens pk l)
    (fun _ _ _ _ _ => trivial)
  dsimp only at h
  have hu : 96 / 101 ≤ pr fun ω : (Unit × Coins K K 1 1 × K) × (Query 9 → K) => Shows par 1 1 shower ω.1.2.1 ω.1.2.2 ω.2 := by
    refine usual.trans ?_
    have hb : Function.Bijective fun ω : (Unit × Coins K K 1 1 × K) × (Query 9 → K) =>
        ((ω.1.2.1, ω.1.2.2, ω.2) : Coins K K 1 1 × K × (Query 9 → K)) :=
      Function.bijective_iff_has_inverse.2 ⟨fun ω => (((), ω.1, ω.2.1), ω.2.2), fun _ => rfl, fun _ => rfl⟩
    rw [← pr_fst (B := K × (Query 9 → K)), ← pr_bijective _ hb]
    exact pr_mono fun ω hω => shower_wins _ _ _ hω
  generalize (pr fun ω : (Unit × Coins K K 1 1 × K) × (Query 9 → K) => Shows par 1 1 shower ω.1.2.1 ω.1.2.2 ω.2) = ε at h hu
  rw [ZMod.card] at h
  norm_num at h
  nlinarith

end Met
end Verif.BBS.Forgery
