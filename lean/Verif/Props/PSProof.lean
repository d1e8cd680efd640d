import Verif.Props.PS
import Mathlib.Data.List.Perm.Subperm
import Mathlib.Data.List.Dedup
import Mathlib.Data.List.Nodup
/-!
# Proofs of knowledge of PS signatures (C47, C82–C86)
-/
set_option linter.unusedSectionVars false
set_option linter.unusedVariables false
set_option linter.unusedSimpArgs false
namespace Verif.PS
open Verif Verif.PoK
open Verif.BBS (hiddenBases mapGet revealedTerms mapGet_nil mapGet_cons contains_keys hiddenBases_length hiddenBases_congr
  merge_exists msm_split)

section
variable {F S O GT : Type} [Field F] [AddCommGroup S] [Module F S] [AddCommGroup O] [Module F O]
  [AddCommGroup GT] [Module F GT] [DecidableEq F] [DecidableEq S] [DecidableEq O] [DecidableEq GT]

/-! ## Lists -/

/-- the sum over the revealed generators -/
def revSum (get : Nat → Option F) (i : Nat) (hs : List O) : O :=
  msm ((revealedTerms get i hs).map (·.1)) ((revealedTerms get i hs).map (·.2))

theorem revSum_cons (get : Nat → Option F) (i : Nat) (h : O) (hs : List O) :
    revSum get i (h :: hs) = (match get i with | some m => m • h | none => 0) + revSum get (i + 1) hs := by
  simp only [revSum, revealedTerms]
  cases get i <;> simp

theorem revSum_congr {get get' : Nat → Option F} : ∀ (i : Nat) (hs : List O), (∀ j, i ≤ j → get j = get' j) →
    revSum get i hs = revSum get' i hs
  | _, [], _ => rfl
  | i, h :: hs, H => by
    rw [revSum_cons, revSum_cons, revSum_congr (i + 1) hs (fun j hj => H j (by omega)), H i (le_refl _)]

theorem revSum_insert {get get' : Nat → Option F} (k : Nat) (v : F) (b : O) (hk : get k = none)
    (h' : ∀ j, get' j = if k = j then some v else get j) : ∀ (i : Nat) (hs : List O), i ≤ k → hs[k - i]? = some b →
    revSum get' i hs = v • b + revSum get i hs
  | _, [], _, hb => by simp at hb
  | i, h :: hs, hi, hb => by
    rw [revSum_cons, revSum_cons]
    by_cases e : i = k
    · subst e
      have hbh : h = b := by simpa using hb
      rw [h' i, if_pos rfl, hk, revSum_congr (get := get') (get' := get) (i + 1) hs (fun j hj => by rw [h' j, if_neg (by omega)]), hbh]
      simp
    · have hb' : hs[k - (i + 1)]? = some b := by
        have : k - i = (k - (i + 1)) + 1 := by omega
        rw [this] at hb
        simpa using hb
      rw [revSum_insert k v b hk h' (i + 1) hs (by omega) hb', h' i, if_neg (fun e' => e e'.symm)]
      abel

/-- looking up the entries one after the other, in any order -/
theorem lookup_spec (Y : List O) : ∀ (rev : List (Nat × F)), (rev.map (·.1)).Nodup → (∀ p ∈ rev, p.1 < Y.length) →
    ∃ bs, lookupBases Y rev = .ok bs ∧ msm bs (rev.map (·.2)) = revSum (mapGet rev) 0 Y
  | [], _, _ => ⟨[], rfl, by
      have : ∀ (i : Nat) (hs : List O), revSum (mapGet ([] : List (Nat × F))) i hs = 0 := by
        intro i hs
        induction hs generalizing i with
        | nil => rfl
        | cons h hs ih => rw [revSum_cons, ih, mapGet_nil]; simp
      simp [this]⟩
  | (k, v) :: rev, hnd, hr => by
    rw [List.map_cons, List.nodup_cons] at hnd
    obtain ⟨bs, h1, h2⟩ := lookup_spec Y rev hnd.2 (fun p hp => hr p (List.mem_cons_of_mem _ hp))
    have hk : k < Y.length := hr (k, v) List.mem_cons_self
    have hb : Y[k]? = some Y[k] := List.getElem?_eq_getElem hk
    refine ⟨Y[k] :: bs, by simp [lookupBases, hb, h1], ?_⟩
    rw [List.map_cons, msm_cons, h2]
    refine (revSum_insert k v Y[k] ?_ (fun j => mapGet_cons k v rev j) 0 Y (Nat.zero_le _) (by simpa using hb)).symm
    have := contains_keys rev k
    cases h : mapGet rev k with
    | none => rfl
    | some m =>
      rw [h] at this
      simp only [Option.isSome_some, List.contains_iff_mem] at this
      exact absurd this hnd.1

theorem lookup_panic (Y : List O) : ∀ (rev : List (Nat × F)), (∃ p ∈ rev, Y.length ≤ p.1) → lookupBases Y rev = .panic
  | [], h => by simp at h
  | (k, v) :: rev, h => by
    by_cases hk : k < Y.length
    · have : ∃ p ∈ rev, Y.length ≤ p.1 := by
        obtain ⟨p, hp, hl⟩ := h
        rcases List.mem_cons.1 hp with rfl | hp
        · simp only at hl; omega
        · exact ⟨p, hp, hl⟩
      simp [lookupBases, List.getElem?_eq_getElem hk, lookup_panic Y rev this]
    · simp [lookupBases, List.getElem?_eq_none (Nat.le_of_not_lt hk)]

theorem mapGet_isSome (rev : List (Nat × F)) (i : Nat) : (mapGet rev i).isSome = true ↔ i ∈ rev.map (·.1) := by
  rw [← contains_keys, List.contains_iff_mem]

/-- a set of indices below `n` has at most `n` members -/
theorem nodup_length_le {l : List Nat} {n : Nat} (hnd : l.Nodup) (h : ∀ i ∈ l, i < n) : l.length ≤ n := by
  have := (hnd.subperm (l₂ := List.range n) (fun i hi => List.mem_range.2 (h i hi))).length_le
  simpa using this

theorem hidden_filter {A : Type} (k : Nat → Bool) : ∀ (i : Nat) (xs : List A),
    (hiddenBases k i xs).length + ((List.range' i xs.length).filter k).length = xs.length
  | _, [] => rfl
  | i, x :: xs => by
    have ih := hidden_filter k (i + 1) xs
    rw [List.length_cons, List.range'_succ, List.filter_cons]
    unfold hiddenBases
    by_cases h : k i = true
    · rw [if_pos h, if_pos h, List.length_cons]; omega
    · rw [if_neg h, if_neg h, List.length_cons]; omega

/-- the number of hidden messages -/
theorem hidden_length {A : Type} (xs : List A) {l : List Nat} (hnd : l.Nodup) (h : ∀ i ∈ l, i < xs.length) :
    (hiddenBases (fun i => l.contains i) 0 xs).length = xs.length - l.length := by
  have h1 := hidden_filter (fun i => l.contains i) 0 xs
  have h2 : ((List.range' 0 xs.length).filter (fun i => l.contains i)).length = l.length := by
    apply List.Perm.length_eq
    rw [List.perm_ext_iff_of_nodup (List.Nodup.filter _ List.nodup_range') hnd]
    intro a
    simp only [List.mem_filter, List.mem_range'_1, List.contains_iff_mem]
    exact ⟨fun hh => hh.2, fun hh => ⟨⟨Nat.zero_le _, by simpa using h a hh⟩, hh⟩⟩
  omega

variable (P : Params F S O GT)

/-! ## What the verifier accepts -/

/-- `verify` answers true exactly if neither component is neutral, the indices are in range, the proof of knowledge of the hidden values
verifies and the pairing equation holds for `J` plus the revealed part. -/
theorem pok_verify_iff (p : SigProof F S O) (vk : Verkey O) (rev : List (Nat × F)) (c : F) (hnd : (rev.map (·.1)).Nodup) :
    p.verify P vk rev c = .ok true ↔
      p.sig.s1 ≠ 0 ∧ p.sig.s2 ≠ 0 ∧ (∀ q ∈ rev, q.1 < vk.Y.length) ∧
      p.vc.responses.length = (hiddenBases (fun i => (mapGet rev i).isSome) 0 vk.Y).length + 1 ∧
      msm (P.gt :: hiddenBases (fun i => (mapGet rev i).isSome) 0 vk.Y) p.vc.responses + c • p.j = p.vc.commitment ∧
      P.e p.sig.s1 (p.j + revSum (mapGet rev) 0 vk.Y + vk.X) = P.e p.sig.s2 P.gt := by
  unfold SigProof.verify
  by_cases h1 : p.sig.s1 = 0
  · simp [h1]
  by_cases h2 : p.sig.s2 = 0
  · simp [h2]
  rw [if_neg (by simp [h1, h2])]
  set HB := hiddenBases (fun i => (mapGet rev i).isSome) 0 vk.Y
  by_cases hr : ∀ q ∈ rev, q.1 < vk.Y.length
  · have hlen : rev.length ≤ vk.Y.length := by
      have := nodup_length_le hnd (n := vk.Y.length) (by
        intro i hi
        obtain ⟨q, hq, rfl⟩ := List.mem_map.1 hi
        exact hr q hq)
      simpa using this
    rw [if_neg (by omega)]
    obtain ⟨bs, hb1, hb2⟩ := lookup_spec vk.Y rev hnd hr
    by_cases hl : (P.gt :: HB).length = p.vc.responses.length
    · have hv := (verify_iff p.vc (P.gt :: HB) p.j c).2 hl
      by_cases he : msm (P.gt :: HB) p.vc.responses + c • p.j = p.vc.commitment
      · rw [hv.1.2 he]
        simp only [liftPoK, Res.ok_bind, if_true, SigProof.pairingCheck, hb1, hb2, Res.pure_eq, Res.ok.injEq, decide_eq_true_eq,
          map_neg, LinearMap.neg_apply, add_neg_eq_zero, he, ne_eq, h1, h2, not_false_eq_true, true_and]
        constructor
        · exact fun hh => ⟨hr, by simpa using hl.symm, hh⟩
        · exact fun hh => hh.2.2
      · rw [hv.2.2 he]
        simp [liftPoK, he]
    · rw [(verify_iff p.vc (P.gt :: HB) p.j c).1 hl]
      simp only [liftPoK, Res.err_bind, false_iff, reduceCtorEq]
      rintro ⟨-, -, -, h, -⟩
      exact hl (by simp [h])
  · constructor
    · intro h
      exfalso
      split at h
      · cases h
      · rw [Res.bind_eq_ok] at h
        obtain ⟨b, -, hb⟩ := h
        split at hb
        · push Not at hr
          simp [SigProof.pairingCheck, lookup_panic vk.Y rev hr] at hb
        · cases hb
    · exact fun h => absurd h.2.2.1 hr

/-! ## Completeness -/

/-- `init` succeeds exactly if the indices are in range, the number of messages is right and, if blindings are supplied, there is one per
hidden message -/
theorem ps_init_ok_iff (sig : Signature S) (vk : Verkey O) (ms : List F) (bl : Option (List F)) (revealed : List Nat) (r t bt : F)
    (rnd : Nat → F) :
    (∃ pok, init P sig vk ms bl revealed r t bt rnd = .ok pok) ↔
      (∀ i ∈ revealed, i < ms.length) ∧ ms.length = vk.Y.length ∧ ∀ b, bl = some b → b.length = ms.length - revealed.length := by
  unfold init checkCompat
  by_cases h1 : ∀ i ∈ revealed, i < ms.length
  · rw [if_neg (by simpa using h1)]
    by_cases h2 : ms.length = vk.Y.length
    · simp only [h2, ne_eq, not_true_eq_false, if_false, Res.ok_bind]
      cases bl with
      | none => simp [chooseBlindings]; rw [h2] at h1; exact h1
      | some b =>
        unfold chooseBlindings
        by_cases h3 : vk.Y.length - revealed.length = b.length
        · simp [h3]; rw [h2] at h1; exact h1
        · have h3' : vk.Y.length - revealed.length ≠ b.length := h3
          simp only [if_pos h3', Res.err_bind, reduceCtorEq]
          exact ⟨fun ⟨_, h⟩ => h.elim, fun hh => absurd (hh.2.2 b rfl).symm h3⟩
    · simp [h2]
  · rw [if_pos (by simpa using h1)]
    constructor
    · rintro ⟨_, h⟩; cases h
    · exact fun h => absurd h.1 h1

/-- the proof made from a signature -/
def honest (sig : Signature S) (vk : Verkey O) (ms : List F) (revealed : List Nat) (r t bt : F) (bs : List F) (c : F) : SigProof F S O :=
  let bases := P.gt :: hiddenBases (fun i => revealed.contains i) 0 vk.Y
  let exponents := t :: hiddenBases (fun i => revealed.contains i) 0 ms
  ⟨⟨r • sig.s1, r • (sig.s2 + t • sig.s1)⟩, msm bases exponents,
    ⟨msm bases (bt :: bs), List.zipWith (fun b s => b - c * s) (bt :: bs) exponents⟩⟩

/-- `init` followed by `gen_proof` -/
theorem init_genProof (sig : Signature S) (vk : Verkey O) (ms : List F) (bl : Option (List F)) (revealed : List Nat) (r t bt : F)
    (rnd : Nat → F) (hr : ∀ i ∈ revealed, i < ms.length) (hl : ms.length = vk.Y.length)
    (hb : ∀ b, bl = some b → b.length = ms.length - revealed.length) :
    ∃ pok bs, init P sig vk ms bl revealed r t bt rnd = .ok pok ∧ chooseBlindings (ms.length - revealed.length) rnd bl = .ok bs ∧
      bs.length = ms.length - revealed.length ∧
      (∀ c, pok.genProof c = .ok (honest P sig vk ms revealed r t bt bs c)) ∧
      (∀ encS encO c, (honest P sig vk ms revealed r t bt bs c).bytesForChallenge P encS encO revealed vk = pok.toBytes encS encO) := by
  have hbs : ∃ bs, chooseBlindings (ms.length - revealed.length) rnd bl = .ok bs ∧ bs.length = ms.length - revealed.length := by
    cases bl with
    | none => exact ⟨_, rfl, by simp⟩
    | some b => exact ⟨b, by simp [chooseBlindings, hb b rfl], hb b rfl⟩
  obtain ⟨bs, hbs, hbl⟩ := hbs
  refine ⟨_, bs, by
    unfold init checkCompat
    rw [if_neg (by simpa using hr), if_neg (by simpa using hl)]
    simp only [Res.ok_bind, hbs]
    rfl, hbs, hbl, fun c => ?_, fun encS encO c => ?_⟩
  · have hlen : (hiddenBases (fun i => revealed.contains i) 0 ms).length = (hiddenBases (fun i => revealed.contains i) 0 vk.Y).length :=
      hiddenBases_length _ _ _ _ hl
    simp only [PoKSig.genProof, Committed.genProof, Committing.finish, List.length_cons, hlen, ne_eq, not_true_eq_false, if_false,
      liftPoK, Res.ok_bind, Res.pure_eq, honest]
  · simp [SigProof.bytesForChallenge, PoKSig.toBytes, Committed.toBytes, Committing.finish, honest, List.append_assoc]

/-- The revealed map gives the messages at the revealed indices (in any iteration order). -/
def Discloses (ms : List F) (revealed : List Nat) (rev : List (Nat × F)) : Prop :=
  (rev.map (·.1)).Nodup ∧ (∀ i, i ∈ rev.map (·.1) ↔ i ∈ revealed) ∧ ∀ i m, mapGet rev i = some m → ms[i]? = some m

/-- **C47** An honestly made proof is accepted for every challenge exactly if the original signature satisfies the verification equation
and the randomised signature has no neutral component.  (`init` does not check the signature.) -/
theorem ps_honest_iff (sig : Signature S) (vk : Verkey O) (ms : List F) (revealed : List Nat) (rev : List (Nat × F)) (r t bt : F)
    (bs : List F) (c : F) (hnd : revealed.Nodup) (hr : ∀ i ∈ revealed, i < ms.length) (hl : ms.length = vk.Y.length)
    (hd : Discloses ms revealed rev) (hb : bs.length = ms.length - revealed.length) :
    (honest P sig vk ms revealed r t bt bs c).verify P vk rev c = .ok true ↔
      r • sig.s1 ≠ 0 ∧ r • (sig.s2 + t • sig.s1) ≠ 0 ∧ P.e sig.s1 (vk.X + msm vk.Y ms) = P.e sig.s2 P.gt := by
  obtain ⟨hd1, hd2, hd3⟩ := hd
  rw [pok_verify_iff P _ _ _ _ hd1]
  have hk : ∀ i, (mapGet rev i).isSome = revealed.contains i := by
    intro i
    rw [Bool.eq_iff_iff, mapGet_isSome, List.contains_iff_mem, hd2]
  have hkf : (fun i => (mapGet rev i).isSome) = fun i => revealed.contains i := funext hk
  have hrange : ∀ q ∈ rev, q.1 < vk.Y.length := by
    intro q hq
    rw [← hl]
    exact hr _ ((hd2 q.1).1 (List.mem_map.2 ⟨q, hq, rfl⟩))
  have hsum := msm_split (get := mapGet rev) 0 vk.Y ms hl.symm (fun j m hj _ => hd3 j m (by simpa using hj))
  rw [hkf] at hsum ⊢
  have hl1 : (hiddenBases (fun i => revealed.contains i) 0 ms).length = ms.length - revealed.length := hidden_length ms hnd hr
  have hl2 : (hiddenBases (fun i => revealed.contains i) 0 vk.Y).length = ms.length - revealed.length := by
    rw [hidden_length vk.Y hnd (fun i hi => by rw [← hl]; exact hr i hi), hl]
  simp only [honest]
  generalize hiddenBases (fun i => revealed.contains i) 0 ms = M at *
  generalize hiddenBases (fun i => revealed.contains i) 0 vk.Y = B at *
  have hresp : (List.zipWith (fun b s => b - c * s) (bt :: bs) (t :: M)).length = B.length + 1 := by
    simp [hb, hl1, hl2]
  have hcomm : msm (P.gt :: B) (List.zipWith (fun b s => b - c * s) (bt :: bs) (t :: M)) + c • msm (P.gt :: B) (t :: M) =
      msm (P.gt :: B) (bt :: bs) := by
    rw [msm_sub_mul _ _ _ _ (by simp [hb, hl1])]; abel
  rw [and_iff_right (a := ∀ q ∈ rev, q.1 < vk.Y.length) hrange]
  simp only [hresp, hcomm, true_and]
  have hrev : msm ((revealedTerms (mapGet rev) 0 vk.Y).map (·.1)) ((revealedTerms (mapGet rev) 0 vk.Y).map (·.2)) =
      revSum (mapGet rev) 0 vk.Y := rfl
  rw [hrev] at hsum
  have harg : msm (P.gt :: B) (t :: M) + revSum (mapGet rev) 0 vk.Y + vk.X = (vk.X + msm vk.Y ms) + t • P.gt := by
    rw [hsum, msm_cons]; abel
  rw [harg]
  refine and_congr_right fun h1 => and_congr_right fun _ => ?_
  have hr0 : r ≠ 0 := by rintro rfl; simp at h1
  simp only [map_add, map_smul, LinearMap.smul_apply, LinearMap.add_apply, smul_add]
  constructor
  · intro h
    have h' : r • P.e sig.s1 vk.X + r • P.e sig.s1 (msm vk.Y ms) = r • P.e sig.s2 P.gt := by
      have e : r • t • (P.e sig.s1) P.gt = t • r • (P.e sig.s1) P.gt := smul_comm _ _ _
      rw [e] at h
      exact add_right_cancel h
    rw [← smul_add] at h'
    exact smul_right_injective _ hr0 h'
  · intro h
    rw [← h, smul_comm r t, smul_add]

/-- **C47** Completeness, for every signature that verifies, every set of revealed messages, supplied or random blindings and every
challenge; prover and verifier hash the same bytes. -/
theorem ps_pok_complete (sig : Signature S) (vk : Verkey O) (ms : List F) (bl : Option (List F)) (revealed : List Nat)
    (rev : List (Nat × F)) (r t bt : F) (rnd : Nat → F) (hv : sig.verify P ms vk = .ok true)
    (hnd : revealed.Nodup) (hr : ∀ i ∈ revealed, i < ms.length) (hd : Discloses ms revealed rev)
    (hb : ∀ b, bl = some b → b.length = ms.length - revealed.length) (hr0 : r ≠ 0) (ht : sig.s2 + t • sig.s1 ≠ 0) :
    ∃ pok, init P sig vk ms bl revealed r t bt rnd = .ok pok ∧ ∀ c, ∃ pf, pok.genProof c = .ok pf ∧
      pf.verify P vk rev c = .ok true ∧
      ∀ encS encO, pf.bytesForChallenge P encS encO revealed vk = pok.toBytes encS encO := by
  obtain ⟨h1, h2, hl, he⟩ := (verify_true_pairing P _ _ _).1 hv
  obtain ⟨pok, bs, hi, -, hbl, hg, hbytes⟩ := init_genProof P sig vk ms bl revealed r t bt rnd hr hl hb
  refine ⟨pok, hi, fun c => ⟨_, hg c, ?_, fun encS encO => hbytes encS encO c⟩⟩
  exact (ps_honest_iff P sig vk ms revealed rev r t bt bs c hnd hr hl hd hbl).2
    ⟨smul_ne_zero hr0 h1, smul_ne_zero hr0 ht, he⟩

/-! ## Special soundness -/

/-- the scalar computed from two proofs with which the randomised signature is unblinded: `(y' - y) / (c - c')` for the first responses -/
def extractT (c c' : F) (p p' : SigProof F S O) : F := (c - c')⁻¹ * (p'.vc.responses.headD 0 - p.vc.responses.headD 0)

/-- the messages computed from two proofs: the revealed ones at their indices, `(y' - y) / (c - c')` at the others -/
def extractMsgs (c c' : F) (p p' : SigProof F S O) (rev : List (Nat × F)) (n : Nat) : List F :=
  BBS.fill (mapGet rev) 0 n (List.zipWith (fun y' y => (c - c')⁻¹ * (y' - y)) (p'.vc.responses.drop 1) (p.vc.responses.drop 1))

/-- `ps_pok_sound` for two proofs that need not reveal the same messages, only hide those of the same generators. -/
theorem ps_pok_extract (hnd : Nondeg P) (p p' : SigProof F S O) (x : F) (ys : List F) (rev rev' : List (Nat × F)) (c c' : F)
    (hrev : (rev.map (·.1)).Nodup) (hrev' : (rev'.map (·.1)).Nodup)
    (hsame : hiddenBases (fun i => (mapGet rev' i).isSome) 0 (keygen P x ys).1.Y = hiddenBases (fun i => (mapGet rev i).isSome) 0 (keygen P x ys).1.Y)
    (h : p.verify P (keygen P x ys).1 rev c = .ok true) (h' : p'.verify P (keygen P x ys).1 rev' c' = .ok true) (hc : c ≠ c')
    (hj : p.j = p'.j) (hT : p.vc.commitment = p'.vc.commitment) :
    let ms := extractMsgs c c' p p' rev ys.length
    Valid x ys (unblind p.sig (extractT c c' p p')) ms ∧ (∀ i m, mapGet rev i = some m → ms[i]? = some m) ∧
      hiddenBases (fun i => (mapGet rev i).isSome) 0 ms =
        List.zipWith (fun y' y => (c - c')⁻¹ * (y' - y)) (p'.vc.responses.drop 1) (p.vc.responses.drop 1) := by
  intro msgs
  rw [pok_verify_iff P _ _ _ _ hrev] at h
  rw [pok_verify_iff P _ _ _ _ hrev', hsame] at h'
  obtain ⟨h1, h2, hin, hl, e1, e2⟩ := h
  obtain ⟨-, -, -, hl', e1', -⟩ := h'
  rw [← hj, ← hT] at e1'
  set vk := (keygen P x ys).1 with hvk
  have hYl : vk.Y.length = ys.length := by simp [hvk, keygen]
  rcases hq : p.vc.responses with _ | ⟨a, zs⟩
  · rw [hq] at hl; simp at hl
  rcases hq' : p'.vc.responses with _ | ⟨a', zs'⟩
  · rw [hq'] at hl'; simp at hl'
  rw [hq] at e1 hl
  rw [hq'] at e1' hl'
  simp only [List.length_cons, Nat.add_right_cancel_iff, msm_cons] at e1 e1' hl hl'
  set HB := hiddenBases (fun i => (mapGet rev i).isSome) 0 vk.Y with hHB
  have hcc : c - c' ≠ 0 := sub_ne_zero.2 hc
  let k := (c - c')⁻¹
  have hk : k * (c - c') = 1 := inv_mul_cancel₀ hcc
  let w := List.zipWith (fun y' y => k * (y' - y)) zs' zs
  have hw : msm HB w = k • (msm HB zs' - msm HB zs) := msm_mul_sub _ _ _ _ (by omega)
  obtain ⟨ms, m1, m2, m3⟩ := merge_exists (get := mapGet rev) 0 vk.Y w (by
    simp only [w, List.length_zipWith]; rw [← hHB]; omega)
  have hin' : ∀ i m, mapGet rev i = some m → i < vk.Y.length := by
    intro i m hi
    have : i ∈ rev.map (·.1) := (mapGet_isSome rev i).1 (by rw [hi]; rfl)
    obtain ⟨q, hq, rfl⟩ := List.mem_map.1 this
    exact hin q hq
  have hsum := msm_split (get := mapGet rev) 0 vk.Y ms m1.symm (fun j m hj hlt => m2 j m hj (by omega))
  rw [m3, ← hHB, hw] at hsum
  have hrs : msm ((revealedTerms (mapGet rev) 0 vk.Y).map (·.1)) ((revealedTerms (mapGet rev) 0 vk.Y).map (·.2)) =
      revSum (mapGet rev) 0 vk.Y := rfl
  rw [hrs] at hsum
  have hJ : p.j = (k * (a' - a)) • P.gt + k • (msm HB zs' - msm HB zs) := by
    have E : (c - c') • p.j = (a' - a) • P.gt + (msm HB zs' - msm HB zs) := by
      have := e1.trans e1'.symm
      linear_combination (norm := module) this
    have : p.j = k • ((c - c') • p.j) := by rw [smul_smul, hk, one_smul]
    rw [this, E]; module
  have hms : msgs = ms := by
    rw [BBS.fill_spec 0 vk.Y.length w ms m1 m2 m3]
    simp only [msgs, extractMsgs, hq, hq', List.drop_succ_cons, List.drop_zero, w, k, hYl]
  have ht : extractT c c' p p' = k * (a' - a) := by simp only [extractT, hq, hq', List.headD_cons, k]
  rw [hms, ht]
  refine ⟨⟨by rw [m1, hYl], h1, ?_⟩, fun i m hi => m2 i m (by simpa using hi) (hin' i m hi), by rw [m3]; rfl⟩
  have harg : p.j + revSum (mapGet rev) 0 vk.Y + vk.X = (k * (a' - a)) • P.gt + (x + dot ys ms) • P.gt := by
    have h3 : msm vk.Y ms = dot ys ms • P.gt := by simp only [hvk, keygen]; exact msm_smul _ _ _
    have h4 : vk.X = x • P.gt := rfl
    have h5 : revSum (mapGet rev) 0 vk.Y = msm vk.Y ms - k • (msm HB zs' - msm HB zs) := by rw [hsum]; abel
    rw [hJ, h5, h3, h4]; module
  rw [harg] at e2
  have hz : P.e (p.sig.s2 - (k * (a' - a)) • p.sig.s1 - (x + dot ys ms) • p.sig.s1) P.gt = 0 := by
    simp only [map_sub, map_smul, map_add, LinearMap.sub_apply, LinearMap.smul_apply] at e2 ⊢
    rw [← e2]; abel
  simp only [unblind]
  exact sub_eq_zero.1 (hnd _ hz)

/-- **C47** Two accepted proofs with the same `σ'`, `J`, first message and revealed messages and different challenges yield a scalar (`extractT`) such
that `σ'` unblinded with it solves the PS equation for messages (`extractMsgs`) that contain the revealed ones; it verifies unless its second component is neutral. -/
theorem ps_pok_sound (hnd : Nondeg P) (p p' : SigProof F S O) (x : F) (ys : List F) (rev : List (Nat × F)) (c c' : F)
    (hrev : (rev.map (·.1)).Nodup)
    (h : p.verify P (keygen P x ys).1 rev c = .ok true) (h' : p'.verify P (keygen P x ys).1 rev c' = .ok true) (hc : c ≠ c')
    (hj : p.j = p'.j) (hT : p.vc.commitment = p'.vc.commitment) :
    let sig := unblind p.sig (extractT c c' p p')
    let ms := extractMsgs c c' p p' rev ys.length
    Valid x ys sig ms ∧ (∀ i m, mapGet rev i = some m → ms[i]? = some m) ∧
      (x + dot ys ms ≠ 0 → sig.verify P ms (keygen P x ys).1 = .ok true) := by
  obtain ⟨hv, hm, -⟩ := ps_pok_extract P hnd p p' x ys rev rev c c' hrev hrev rfl h h' hc hj hT
  refine ⟨hv, hm, fun h0 => (ps_verify_iff P hnd x ys _ _).2 ⟨hv, ?_⟩⟩
  rw [hv.2.2]; exact smul_ne_zero h0 hv.2.1

/-! ## Binding of the revealed messages -/

/-- **C82** The challenge fixes the randomised signature and `J`, and these fix the revealed messages: two accepted proofs with the same
challenge bytes, for the same revealed indices, disclose the same values, or the difference is a linear relation between the
generators of the key. -/
theorem ps_revealed_bound (hnd : Nondeg P) (hndO : ∀ (a : S) (b : O), a ≠ 0 → P.e a b = 0 → b = 0)
    (cS : Codec S) (cO : Codec O) (p p' : SigProof F S O) (vk : Verkey O)
    (rev rev' : List (Nat × F)) (revealed : List Nat) (c c' : F) (hrev : (rev.map (·.1)).Nodup)
    (hkeys : rev.map (·.1) = rev'.map (·.1))
    (h : p.verify P vk rev c = .ok true) (h' : p'.verify P vk rev' c' = .ok true)
    (hbytes : p.bytesForChallenge P cS.enc cO.enc revealed vk = p'.bytesForChallenge P cS.enc cO.enc revealed vk) :
    revSum (mapGet rev) 0 vk.Y = revSum (mapGet rev') 0 vk.Y ∧ p.sig = p'.sig ∧ p.j = p'.j := by
  have key : p.sig.s1 = p'.sig.s1 ∧ p.sig.s2 = p'.sig.s2 ∧ p.j = p'.j := by
    simp only [SigProof.bytesForChallenge, Signature.toBytes, List.append_assoc] at hbytes
    have a1 := List.append_inj hbytes (by simp [cS.enc_length])
    have a2 := List.append_inj a1.2 (by simp [cS.enc_length])
    have a3 := List.append_inj a2.2 (by simp [cO.enc_length])
    exact ⟨cS.enc_injective a1.1, cS.enc_injective a2.1, cO.enc_injective a3.1⟩
  rw [pok_verify_iff P _ _ _ _ hrev] at h
  rw [pok_verify_iff P _ _ _ _ (by rw [← hkeys]; exact hrev)] at h'
  obtain ⟨h1, -, -, -, -, e⟩ := h
  obtain ⟨-, -, -, -, -, e'⟩ := h'
  rw [← key.1, ← key.2.1, ← key.2.2] at e'
  have : P.e p.sig.s1 (revSum (mapGet rev) 0 vk.Y - revSum (mapGet rev') 0 vk.Y) = 0 := by
    have := e.trans e'.symm
    simp only [map_add, map_sub] at this ⊢
    have := add_left_cancel (add_right_cancel this)
    rw [this, sub_self]
  refine ⟨sub_eq_zero.1 (hndO _ _ h1 this), ?_, key.2.2⟩
  cases hp : p.sig with
  | mk a b => cases hp' : p'.sig with
    | mk a' b' => rw [hp, hp'] at key; simp only at key; rw [key.1, key.2.1]

/-- **C82** in particular a single revealed value cannot be changed -/
theorem ps_single_revealed_bound (hnd : Nondeg P) (hndO : ∀ (a : S) (b : O), a ≠ 0 → P.e a b = 0 → b = 0)
    (cS : Codec S) (cO : Codec O) (p p' : SigProof F S O) (vk : Verkey O) (rest : List (Nat × F)) (k : Nat) (m m' : F)
    (revealed : List Nat) (c c' : F) (hrev : (((k, m) :: rest).map (·.1)).Nodup) (hY : ∀ y ∈ vk.Y, y ≠ 0)
    (h : p.verify P vk ((k, m) :: rest) c = .ok true) (h' : p'.verify P vk ((k, m') :: rest) c' = .ok true)
    (hbytes : p.bytesForChallenge P cS.enc cO.enc revealed vk = p'.bytesForChallenge P cS.enc cO.enc revealed vk) : m = m' := by
  have hb := (ps_revealed_bound P hnd hndO cS cO p p' vk _ _ revealed c c' hrev (by simp) h h' hbytes).1
  have hin := ((pok_verify_iff P _ _ _ _ hrev).1 h).2.2.1
  have hk : k < vk.Y.length := hin (k, m) List.mem_cons_self
  have hget : vk.Y[k]? = some vk.Y[k] := List.getElem?_eq_getElem hk
  rw [List.map_cons, List.nodup_cons] at hrev
  have hnone : mapGet rest k = none := by
    cases hh : mapGet rest k with
    | none => rfl
    | some v => exact absurd ((mapGet_isSome rest k).1 (by rw [hh]; rfl)) hrev.1
  rw [revSum_insert k m vk.Y[k] hnone (fun j => mapGet_cons k m rest j) 0 vk.Y (Nat.zero_le _) (by simpa using hget),
    revSum_insert k m' vk.Y[k] hnone (fun j => mapGet_cons k m' rest j) 0 vk.Y (Nat.zero_le _) (by simpa using hget)] at hb
  have : (m - m') • vk.Y[k] = 0 := by rw [sub_smul, add_right_cancel hb, sub_self]
  rcases smul_eq_zero.1 this with h0 | h0
  · exact sub_eq_zero.1 h0
  · exact absurd h0 (hY _ (List.getElem_mem hk))

end
end Verif.PS
