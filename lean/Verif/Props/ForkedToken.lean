import Verif.Props.ForkedPoK
import Verif.Props.GrothTokenChallenge
/-!
# Accepted attribute tokens come from holders of delegated credentials (C199)
-/
set_option linter.unusedSectionVars false
set_option linter.unusedVariables false
set_option linter.unusedSimpArgs false
namespace Verif.Forking
open Verif Verif.Groth

section
variable {F R : Type} [Field F] [Fintype F] [DecidableEq F] [Fintype R]
variable {G1 G2 GT : Type} [AddCommGroup G1] [Module F G1] [AddCommGroup G2] [Module F G2]
  [AddCommGroup GT] [Module F GT] [DecidableEq G1] [DecidableEq G2] [DecidableEq GT]
variable (e : G1 →ₗ[F] G2 →ₗ[F] GT)

/-- What a holder sends: the commitment, the challenge and the responses. -/
structure Sent (F G1 G2 GT : Type) where
  comm : Comm G1 G2 GT
  challenge : F
  resp : Resp F G1 G2

/-- one round of the reconstruction reads only the lengths of `comms_t`, the `R` and the revealed attributes of the commitment -/
theorem reconStep_congr (L : Nat) (k k' : Comm G1 G2 GT) (q : Resp F G1 G2) (ch : F) (revealed : List (List Nat)) (p1 : Setup G1 G2)
    (p2 : Setup G2 G1) (v : ReconVals GT) (i : Nat) (ht : k'.commsT.map List.length = k.commsT.map List.length) (h1 : k'.oddR = k.oddR)
    (h2 : k'.evenR = k.evenR) (h3 : k'.oddRev = k.oddRev) (h4 : k'.evenRev = k.evenRev) :
    reconStep e L k' q ch revealed p1 p2 v i = reconStep e L k q ch revealed p1 p2 v i := by
  have hl : (k'.commsT[i - 1]?).map List.length = (k.commsT[i - 1]?).map List.length := by
    rw [← List.getElem?_map, ← List.getElem?_map, ht]
  unfold reconStep
  rw [h1, h2, h3, h4]
  cases hk : k.commsT[i - 1]? with
  | none =>
    rw [hk] at hl
    cases hk' : k'.commsT[i - 1]? with
    | none => rfl
    | some a => rw [hk'] at hl; cases hl
  | some a =>
    rw [hk] at hl
    cases hk' : k'.commsT[i - 1]? with
    | none => rw [hk'] at hl; cases hl
    | some b =>
      rw [hk'] at hl
      simp only [Option.map_some, Option.some.injEq] at hl
      simp only [Res.unwrap_some, Res.ok_bind, hl]

/-- what is reconstructed is reconstructed again from itself -/
theorem reconstruct_again (L : Nat) (k k' : Comm G1 G2 GT) (q : Resp F G1 G2) (ch : F) (revealed : List (List Nat)) (ipk : G2)
    (p1 : Setup G1 G2) (p2 : Setup G2 G1) (h : reconstruct e L k q ch revealed ipk p1 p2 = .ok k') :
    reconstruct e L k' q ch revealed ipk p1 p2 = .ok k' := by
  obtain ⟨hs, h1, h2, h3, h4⟩ := reconstruct_shape e L k k' q ch revealed ipk p1 p2 h
  have hv : k'.validate L = k.validate L := by
    unfold Comm.validate
    have : k'.commsT.length = k.commsT.length := by have := congrArg List.length hs.t; simpa using this
    rw [this, hs.s, h1, h2, h3, h4]
  have hstep : ∀ v, reconStep e L k' q ch revealed p1 p2 v = reconStep e L k q ch revealed p1 p2 v :=
    fun v => funext (fun i => reconStep_congr e L k k' q ch revealed p1 p2 v i hs.t h1 h2 h3 h4)
  unfold reconstruct reconFrom at h ⊢
  rw [hv]
  simp only [Res.bind_eq_ok, Res.pure_eq, Res.ok.injEq, hstep] at h ⊢
  obtain ⟨u, hu, u', hu', v, hv', l, hl, rfl⟩ := h
  exact ⟨u, hu, u', hu', v, hv', l, hl, rfl⟩

theorem flatMap_len {α : Type} {enc : α → Bytes} {n : Nat} (h : FixedEnc enc n) : ∀ l l' : List α, l.length = l'.length →
    (l.flatMap enc).length = (l'.flatMap enc).length
  | [], [], _ => rfl
  | [], _ :: _, h => by simp at h
  | _ :: _, [], h => by simp at h
  | a :: l, b :: l', hl => by
    simp only [List.flatMap_cons, List.length_append, h.len, flatMap_len h l l' (by simpa using hl)]

theorem flatMap2_len {α : Type} {enc : α → Bytes} {n : Nat} (h : FixedEnc enc n) : ∀ l l' : List (List α), l.map List.length = l'.map List.length →
    (l.flatMap (fun v => v.flatMap enc)).length = (l'.flatMap (fun v => v.flatMap enc)).length
  | [], [], _ => rfl
  | [], _ :: _, h => by simp at h
  | _ :: _, [], h => by simp at h
  | a :: l, b :: l', hl => by
    simp only [List.map_cons, List.cons.injEq] at hl
    simp only [List.flatMap_cons, List.length_append, flatMap2_len h l l' hl.2, flatMap_len h a b hl.1]

theorem revBytes_len {α : Type} {enc : α → Bytes} {n : Nat} (h : FixedEnc enc n) : ∀ m m' : List (Nat × α), m.map Prod.fst = m'.map Prod.fst →
    (revBytes enc m).length = (revBytes enc m').length
  | [], [], _ => rfl
  | [], _ :: _, h => by simp at h
  | _ :: _, [], h => by simp at h
  | (j, a) :: m, (j', b) :: m', hl => by
    simp only [List.map_cons, List.cons.injEq] at hl
    have ih := revBytes_len h m m' hl.2
    unfold revBytes at ih ⊢
    simp only [List.flatMap_cons, List.length_append, h.len, ih, hl.1]

theorem revsBytes_len {α : Type} {enc : α → Bytes} {n : Nat} (h : FixedEnc enc n) : ∀ m m' : List (List (Nat × α)),
    m.map (fun x => x.map Prod.fst) = m'.map (fun x => x.map Prod.fst) →
    (m.flatMap (revBytes enc)).length = (m'.flatMap (revBytes enc)).length
  | [], [], _ => rfl
  | [], _ :: _, h => by simp at h
  | _ :: _, [], h => by simp at h
  | a :: l, b :: l', hl => by
    simp only [List.map_cons, List.cons.injEq] at hl
    simp only [List.flatMap_cons, List.length_append, revsBytes_len h l l' hl.2, revBytes_len h a b hl.1]

theorem toBytes_len {enc1 : G1 → Bytes} {enc2 : G2 → Bytes} {encT : GT → Bytes} {n1 n2 nT : Nat} (h1 : FixedEnc enc1 n1)
    (h2 : FixedEnc enc2 n2) (hT : FixedEnc encT nT) {k k' : Comm G1 G2 GT} (hs : SameShape k k') :
    (k.toBytes enc1 enc2 encT).length = (k'.toBytes enc1 enc2 encT).length := by
  unfold Comm.toBytes
  simp only [List.length_append]
  rw [flatMap_len hT _ _ hs.s, flatMap_len h2 _ _ hs.oddR, flatMap_len h1 _ _ hs.evenR, flatMap2_len hT _ _ hs.t,
    revsBytes_len h1 _ _ hs.oddRev, revsBytes_len h2 _ _ hs.evenRev]

theorem shape_trans {k k' k'' : Comm G1 G2 GT} (h : SameShape k k') (h' : SameShape k' k'') : SameShape k k'' :=
  ⟨h.s.trans h'.s, h.oddR.trans h'.oddR, h.evenR.trans h'.evenR, h.t.trans h'.t, h.oddRev.trans h'.oddRev, h.evenRev.trans h'.evenRev⟩

theorem shape_symm {k k' : Comm G1 G2 GT} (h : SameShape k k') : SameShape k' k :=
  ⟨h.s.symm, h.oddR.symm, h.evenR.symm, h.t.symm, h.oddRev.symm, h.evenRev.symm⟩

open Classical in
/-- what the verifier hashes for a token of the agreed shape: the root's key, the reconstructed commitment, the signed message -/
noncomputable def tokenBytes (enc1 : G1 → Bytes) (enc2 : G2 → Bytes) (encT : GT → Bytes) (L : Nat) (revealed : List (List Nat)) (ipk : G2)
    (p1 : Setup G1 G2) (p2 : Setup G2 G1) (shape : Comm G1 G2 GT) (extra : Bytes) (o : Sent F G1 G2 GT) : Bytes :=
  match reconstruct e L o.comm o.resp o.challenge revealed ipk p1 p2 with
  | .ok k' => if SameShape o.comm shape then enc2 ipk ++ k'.toBytes enc1 enc2 encT ++ extra else []
  | _ => []

theorem tokenBytes_le {enc1 : G1 → Bytes} {enc2 : G2 → Bytes} {encT : GT → Bytes} {n1 n2 nT : Nat} (h1 : FixedEnc enc1 n1)
    (h2 : FixedEnc enc2 n2) (hT : FixedEnc encT nT) (L : Nat) (revealed : List (List Nat)) (ipk : G2)
    (p1 : Setup G1 G2) (p2 : Setup G2 G1) (shape : Comm G1 G2 GT) (extra : Bytes) (o : Sent F G1 G2 GT) :
    (tokenBytes e enc1 enc2 encT L revealed ipk p1 p2 shape extra o).length ≤
      (enc2 ipk ++ shape.toBytes enc1 enc2 encT ++ extra).length := by
  unfold tokenBytes
  cases h : reconstruct e L o.comm o.resp o.challenge revealed ipk p1 p2 with
  | ok k' =>
    dsimp only
    split_ifs with hs
    · have := toBytes_len h1 h2 hT (shape_trans (reconstruct_shape e L _ _ _ _ _ _ _ _ h).1 hs)
      simp only [List.length_append, this]; exact le_refl _
    · exact Nat.zero_le _
  | err _ => exact Nat.zero_le _
  | panic => exact Nat.zero_le _

/-- **C199** A holder whose tokens of the agreed shape (lengths and revealed indices) the verifier accepts, for the message `extra`, with
probability `ε` after at most `q` questions to the hash function has a credential delegated from the root: running it twice, with
probability at least `ε² / (q + 1) - ε / |F|` the first run is accepted and `extractChain` computes a valid chain of `L` links from the
root's key with the revealed attributes, and `extractSk` the secret key of its last member. -/
theorem token_holder_known {enc1 : G1 → Bytes} {enc2 : G2 → Bytes} {encT : GT → Bytes} {n1 n2 nT : Nat} (h1 : FixedEnc enc1 n1)
    (h2 : FixedEnc enc2 n2) (hT : FixedEnc encT nT) (L : Nat) (hL : 1 ≤ L) (revealed : List (List Nat)) (ipk : G2)
    (p1 : Setup G1 G2) (p2 : Setup G2 G1) (shape : Comm G1 G2 GT) (extra : Bytes)
    (B : Nat) (hB : (enc2 ipk ++ shape.toBytes enc1 enc2 encT ++ extra).length ≤ B)
    (A : R → Prover (Query B) F (Sent F G1 G2 GT)) (q : Nat) (hq : ∀ ρ, (A ρ).AtMost q) :
    let accepted (f : Query B → F) (o : Sent F G1 G2 GT) : Prop := SameShape o.comm shape ∧
      ∃ k', reconstruct e L o.comm o.resp o.challenge revealed ipk p1 p2 = .ok k' ∧
        genChallenge enc1 enc2 encT (hashOf f) k' ipk extra = o.challenge
    let question (o : Sent F G1 G2 GT) : Query B :=
      ⟨tokenBytes e enc1 enc2 encT L revealed ipk p1 p2 shape extra o, (tokenBytes_le e h1 h2 hT _ _ _ _ _ _ _ _).trans hB⟩
    let ε := pr fun ω : R × (Query B → F) => accepted ω.2 ((A ω.1).run ω.2)
    ε ^ 2 / (q + 1) - ε / Fintype.card F ≤ pr fun ω : R × (Query B → F) × (Query B → F) =>
      let o := (A ω.1).run ω.2.1
      let o' := (A ω.1).run (second question (A ω.1) ω.2.1 ω.2.2)
      let c := extractChain L o.comm o.resp o'.resp o.challenge o'.challenge revealed ipk p1 p2
      let ev := (evensOf L).map (extractEven L o.resp o'.resp o.challenge o'.challenge ipk p2)
      let od := (oddsOf L).map (extractOdd L o.resp o'.resp o.challenge o'.challenge p1)
      let sk := extractSk F o.resp o'.resp o.challenge o'.challenge
      accepted ω.2.1 o ∧ c.size = L ∧ ChainValid e c (ipk :: ev) od p1 p2 ∧ Reveals c o.comm revealed ∧
      (L % 2 = 1 → od.getLast? = some (sk • p1.ga)) ∧ (L % 2 = 0 → ev.getLast? = some (sk • p2.ga)) := by
  intro accepted question ε
  let win : Sent F G1 G2 GT → F → Prop := fun o c => SameShape o.comm shape ∧
      (∃ k', reconstruct e L o.comm o.resp o.challenge revealed ipk p1 p2 = .ok k') ∧ c = o.challenge
  have hbytes : ∀ (o : Sent F G1 G2 GT) k', SameShape o.comm shape → reconstruct e L o.comm o.resp o.challenge revealed ipk p1 p2 = .ok k' →
      tokenBytes e enc1 enc2 encT L revealed ipk p1 p2 shape extra o = enc2 ipk ++ k'.toBytes enc1 enc2 encT ++ extra := by
    intro o k' hs hk
    unfold tokenBytes
    rw [hk]
    dsimp only
    rw [if_pos hs]
  have hacc : ∀ f o, accepted f o ↔ win o (f (question o)) := by
    intro f o
    have hask : f (question o) = hashOf f (tokenBytes e enc1 enc2 encT L revealed ipk p1 p2 shape extra o) :=
      (hashOf_eq f _ ((tokenBytes_le e h1 h2 hT _ _ _ _ _ _ _ _).trans hB)).symm
    simp only [accepted, win]
    constructor
    · rintro ⟨a, k', b, c⟩
      refine ⟨a, ⟨k', b⟩, ?_⟩
      rw [hask, hbytes o k' a b]; exact c
    · rintro ⟨a, ⟨k', b⟩, c⟩
      refine ⟨a, k', b, ?_⟩
      rw [hask, hbytes o k' a b] at c; exact c
  have hε : ε = pr fun ω : R × (Query B → F) => win ((A ω.1).run ω.2) (ω.2 (question ((A ω.1).run ω.2))) := by
    simp only [ε, hacc]
  rw [hε]
  refine (forking question win A q hq).trans (pr_mono ?_)
  rintro ⟨ρ, f, f'⟩ ⟨g1, g2, g3, g4⟩
  refine ⟨(hacc _ _).2 g1, ?_⟩
  dsimp only at g1 g2 g3 g4 ⊢
  set o := (A ρ).run f
  set o' := (A ρ).run (second question (A ρ) f f')
  obtain ⟨s1, ⟨k, hk⟩, c1⟩ := g1
  obtain ⟨s2, ⟨k', hk'⟩, c2⟩ := g2
  rw [c1, c2] at g4
  have hb : tokenBytes e enc1 enc2 encT L revealed ipk p1 p2 shape extra o = tokenBytes e enc1 enc2 encT L revealed ipk p1 p2 shape extra o' :=
    congrArg Subtype.val g3
  rw [hbytes o k s1 hk, hbytes o' k' s2 hk'] at hb
  obtain ⟨t1, r1, r2, r3, r4⟩ := reconstruct_shape e L _ _ _ _ _ _ _ _ hk
  obtain ⟨t2, -⟩ := reconstruct_shape e L _ _ _ _ _ _ _ _ hk'
  have hkk : k = k' := commitment_bytes_inj enc1 enc2 encT h1 h2 hT k k' (shape_trans (shape_trans t1 s1) (shape_symm (shape_trans t2 s2)))
    (List.append_cancel_left (List.append_cancel_right hb))
  subst hkk
  obtain ⟨d1, d2, d3, d4, d5⟩ := token_sound e L hL k o.resp o'.resp o.challenge o'.challenge g4 revealed ipk p1 p2
    (reconstruct_again e L _ _ _ _ _ _ _ _ hk) (reconstruct_again e L _ _ _ _ _ _ _ _ hk')
  have hc : extractChain L o.comm o.resp o'.resp o.challenge o'.challenge revealed ipk p1 p2 =
      extractChain L k o.resp o'.resp o.challenge o'.challenge revealed ipk p1 p2 := by
    have hlen : ∀ i, (o.comm.commsT.getD i []).length = (k.commsT.getD i []).length := by
      intro i
      have := congrArg (fun l => l.getD i 0) t1.t
      simp only [List.getD_eq_getElem?_getD, List.getElem?_map] at this ⊢
      cases ha : o.comm.commsT[i]? <;> cases hb : k.commsT[i]? <;> rw [ha, hb] at this <;> simp_all
    unfold extractChain
    simp only [hlen, r1, r2, r3, r4]
  rw [hc]
  refine ⟨d1, d2, ?_, d4, d5⟩
  have hT' : ∀ (i : Nat) ct, k.commsT[i]? = some ct → ∃ ct', o.comm.commsT[i]? = some ct' ∧ ct'.length = ct.length := by
    intro i ct hct
    have := congrArg (fun l => l[i]?) t1.t
    simp only [List.getElem?_map, hct, Option.map_some] at this
    cases ha : o.comm.commsT[i]? with
    | none => rw [ha] at this; cases this
    | some ct' => rw [ha] at this; exact ⟨ct', rfl, by simpa using this.symm⟩
  refine ⟨fun i a b c => ?_, fun i a b c => ?_⟩
  · obtain ⟨l, m, rv, ct, x1, x2, x3, x4, x5, x6⟩ := d3.odd i a b c
    obtain ⟨ct', y1, y2⟩ := hT' _ _ x4
    exact ⟨l, m, rv, ct', x1, by rw [← r3]; exact x2, x3, y1, by rw [y2]; exact x5, by rw [y2]; exact x6⟩
  · obtain ⟨l, m, rv, ct, x1, x2, x3, x4, x5, x6⟩ := d3.even i a b c
    obtain ⟨ct', y1, y2⟩ := hT' _ _ x4
    exact ⟨l, m, rv, ct', x1, by rw [← r4]; exact x2, x3, y1, by rw [y2]; exact x5, by rw [y2]; exact x6⟩

/-- An honest holder: commits, asks for the challenge, responds. -/
noncomputable def honestHolder {enc1 : G1 → Bytes} {enc2 : G2 → Bytes} {encT : GT → Bytes} (k : Comm G1 G2 GT) (ipk : G2) (extra : Bytes) (B : Nat)
    (hB : (enc2 ipk ++ k.toBytes enc1 enc2 encT ++ extra).length ≤ B) (resp : F → Resp F G1 G2) : Prover (Query B) F (Sent F G1 G2 GT) :=
  .ask ⟨_, hB⟩ (fun c => .out ⟨k, c, resp c⟩)

/-- The hypotheses are met: an honest holder of a chain asks one question and is accepted with probability 1, so that the bound is about 1/2. -/
theorem honest_holder_known [Nonempty R] {enc1 : G1 → Bytes} {enc2 : G2 → Bytes} {encT : GT → Bytes} {n1 n2 nT : Nat} (h1 : FixedEnc enc1 n1)
    (h2 : FixedEnc enc2 n2) (hT : FixedEnc encT nT) {c : Chain G1 G2} {ipk : G2} {ev : List G2} {od : List G1} {sk : F} {p1 : Setup G1 G2}
    {p2 : Setup G2 G1} {revealed : List (List Nat)} (h : Presentable e c ipk ev od sk p1 p2 revealed) (rnd : Nat → LevelRnd F)
    (hσ : ∀ i, (rnd i).sig ≠ 0) (extra : Bytes) : ∃ (k : Comm G1 G2 GT) (resp : F → Resp F G1 G2) (B : Nat)
      (hB : (enc2 ipk ++ k.toBytes enc1 enc2 encT ++ extra).length ≤ B),
    let A := honestHolder k ipk extra B hB resp
    let question (o : Sent F G1 G2 GT) : Query B :=
      ⟨tokenBytes e enc1 enc2 encT c.size revealed ipk p1 p2 k extra o, (tokenBytes_le e h1 h2 hT _ _ _ _ _ _ _ _).trans hB⟩
    1 / 2 - 1 / (Fintype.card F : ℚ) ≤ pr fun ω : R × (Query B → F) × (Query B → F) =>
      let o := A.run ω.2.1
      let o' := A.run (second question A ω.2.1 ω.2.2)
      ChainValid e (extractChain c.size o.comm o.resp o'.resp o.challenge o'.challenge revealed ipk p1 p2)
        (ipk :: (evensOf c.size).map (extractEven c.size o.resp o'.resp o.challenge o'.challenge ipk p2))
        ((oddsOf c.size).map (extractOdd c.size o.resp o'.resp o.challenge o'.challenge p1)) p1 p2 := by
  obtain ⟨tok, k, -, hk, -, -⟩ := token_complete h rnd hσ 0
  have hall : ∀ ch : F, ∃ q, reconstruct e c.size k q ch revealed ipk p1 p2 = .ok k := by
    intro ch
    obtain ⟨tok', k', q, hk', -, hr⟩ := token_complete h rnd hσ ch
    rw [hk] at hk'
    simp only [Res.ok.injEq, Prod.mk.injEq] at hk'
    obtain ⟨rfl, rfl⟩ := hk'
    exact ⟨q, hr⟩
  choose resp hresp using hall
  refine ⟨k, resp, _, le_refl _, ?_⟩
  intro A question
  have hm := token_holder_known (R := R) e h1 h2 hT c.size h.valid.nonempty revealed ipk p1 p2 k extra _ (le_refl _) (fun _ => A) 1 (fun _ c => trivial)
  dsimp only at hm
  rw [pr_one] at hm
  · refine le_trans (le_of_eq ?_) (hm.trans (pr_mono fun ω hω => hω.2.2.1))
    norm_num
  · rintro ⟨ρ, f⟩
    refine ⟨⟨rfl, rfl, rfl, rfl, rfl, rfl⟩, k, hresp _, ?_⟩
    exact hashOf_eq f _ (le_refl _)

example := honest_holder_known (R := Unit) Verif.Toy.toyE toyEnc toyEnc toyEnc honest_presentable toyRnd' toyRnd'_sig [1, 2]
end
end Verif.Forking
