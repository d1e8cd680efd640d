import Verif.Props.PSProof
import Verif.Toy
/-!
# More about proofs of knowledge of PS signatures (C83–C86) and concrete instances
-/
set_option linter.unusedSectionVars false
set_option linter.unusedVariables false
set_option linter.unusedSimpArgs false
namespace Verif.PS
open Verif Verif.PoK
open Verif.BBS (hiddenBases mapGet revealedTerms mapGet_nil mapGet_cons contains_keys hiddenBases_length hiddenBases_congr
  merge_exists msm_split)

section
variable {F S O GT : Type} [Field F] [AddCommGroup S] [Module F S] [AddCommGroup O] [Module F O]
  [AddCommGroup GT] [Module F GT] [DecidableEq F] [DecidableEq S] [DecidableEq O] [DecidableEq GT]
variable (P : Params F S O GT)

/-! ## Responses -/

/-- the three answers of `get_resp_for_message`: it counts after the first response -/
theorem ps_resp_cases (p : SigProof F S O) (i : Nat) :
    (p.vc.responses = [] → p.respForMessage i = .panic) ∧
    (∀ a zs, p.vc.responses = a :: zs →
      p.respForMessage i = match zs[i]? with | some v => .ok v | none => .err (.general "Message index")) := by
  refine ⟨fun h => by simp [SigProof.respForMessage, h], fun a zs h => ?_⟩
  unfold SigProof.respForMessage
  rw [h, if_neg (by simp), List.length_cons, Nat.add_sub_cancel, Nat.add_comm 1 i]
  by_cases hi : i < zs.length
  · rw [if_neg (by omega), List.getElem?_cons_succ, List.getElem?_eq_getElem hi]
    simp
  · rw [if_pos (by omega), List.getElem?_eq_none (by omega)]

/-- **C83** `get_resp_for_message(j)` of an honest proof is the response of the `j`-th *hidden* message, and an error from the number of
hidden messages on. -/
theorem ps_resp_spec (sig : Signature S) (vk : Verkey O) (ms : List F) (revealed : List Nat) (r t bt : F) (bs : List F) (c : F)
    (hnd : revealed.Nodup) (hr : ∀ i ∈ revealed, i < ms.length) (hb : bs.length = ms.length - revealed.length) (j : Nat) :
    (honest P sig vk ms revealed r t bt bs c).respForMessage j =
      match bs[j]?, (hiddenBases (fun i => revealed.contains i) 0 ms)[j]? with
      | some b, some m => .ok (b - c * m)
      | _, _ => .err (.general "Message index") := by
  rw [(ps_resp_cases _ j).2 (bt - c * t) (List.zipWith (fun b s => b - c * s) bs (hiddenBases (fun i => revealed.contains i) 0 ms)) (by
    simp only [honest, List.zipWith_cons_cons])]
  have hl1 : (hiddenBases (fun i => revealed.contains i) 0 ms).length = ms.length - revealed.length := hidden_length ms hnd hr
  generalize hiddenBases (fun i => revealed.contains i) 0 ms = M at *
  rw [List.getElem?_zipWith]
  cases h1 : bs[j]? <;> cases h2 : M[j]? <;> simp

/-- **C83** (negated) With message 0 revealed, asking for the response of message 1 returns the response of message 2, and asking for
message 2 is an error. -/
theorem ps_resp_shifted (sig : Signature S) (X y0 y1 y2 : O) (m0 m1 m2 b1 b2 r t bt c : F) :
    (honest P sig ⟨X, [y0, y1, y2]⟩ [m0, m1, m2] [0] r t bt [b1, b2] c).respForMessage 0 = .ok (b1 - c * m1) ∧
    (honest P sig ⟨X, [y0, y1, y2]⟩ [m0, m1, m2] [0] r t bt [b1, b2] c).respForMessage 1 = .ok (b2 - c * m2) ∧
    (honest P sig ⟨X, [y0, y1, y2]⟩ [m0, m1, m2] [0] r t bt [b1, b2] c).respForMessage 2 = .err (.general "Message index") := by
  refine ⟨?_, ?_, ?_⟩ <;> rw [ps_resp_spec P _ _ _ _ _ _ _ _ _ (by simp) (by simp) (by simp)] <;> simp [hiddenBases]

/-- **C83** the same message under the same blinding as the `i`-th and `j`-th hidden message gives the same response under the same
challenge, in proofs about any two signatures and keys -/
theorem ps_equal_messages_equal_responses (sig sig' : Signature S) (vk vk' : Verkey O) (ms ms' : List F) (revealed revealed' : List Nat)
    (r t bt r' t' bt' : F) (bs bs' : List F) (c : F) (hnd : revealed.Nodup) (hnd' : revealed'.Nodup)
    (hr : ∀ i ∈ revealed, i < ms.length) (hr' : ∀ i ∈ revealed', i < ms'.length) (hb : bs.length = ms.length - revealed.length)
    (hb' : bs'.length = ms'.length - revealed'.length) (i j : Nat) (m b : F)
    (h1 : (hiddenBases (fun i => revealed.contains i) 0 ms)[i]? = some m) (h2 : bs[i]? = some b)
    (h1' : (hiddenBases (fun i => revealed'.contains i) 0 ms')[j]? = some m) (h2' : bs'[j]? = some b) :
    (honest P sig vk ms revealed r t bt bs c).respForMessage i = .ok (b - c * m) ∧
    (honest P sig' vk' ms' revealed' r' t' bt' bs' c).respForMessage j = .ok (b - c * m) := by
  rw [ps_resp_spec P _ _ _ _ _ _ _ _ _ hnd hr hb, ps_resp_spec P _ _ _ _ _ _ _ _ _ hnd' hr' hb', h1, h2, h1', h2']
  exact ⟨rfl, rfl⟩

/-- **C83, soundness** If a prover answers two challenges, in two proofs under the same challenge each time, with equal responses for
the `i`-th and the `j`-th hidden message, then the hidden messages are equal in the extracted signatures. -/
theorem ps_equal_responses_sound (hnd : Nondeg P) (p p' q q' : SigProof F S O) (x x2 : F) (ys ys2 : List F)
    (rev rev2 : List (Nat × F)) (c c' : F) (hrev : (rev.map (·.1)).Nodup) (hrev2 : (rev2.map (·.1)).Nodup)
    (hp : p.verify P (keygen P x ys).1 rev c = .ok true) (hp' : p'.verify P (keygen P x ys).1 rev c' = .ok true)
    (hq : q.verify P (keygen P x2 ys2).1 rev2 c = .ok true) (hq' : q'.verify P (keygen P x2 ys2).1 rev2 c' = .ok true) (hc : c ≠ c')
    (hj : p.j = p'.j) (hT : p.vc.commitment = p'.vc.commitment) (hj2 : q.j = q'.j) (hT2 : q.vc.commitment = q'.vc.commitment)
    (i j : Nat) (v v' : F) (h1 : p.respForMessage i = .ok v) (h2 : q.respForMessage j = .ok v)
    (h1' : p'.respForMessage i = .ok v') (h2' : q'.respForMessage j = .ok v') :
    let ms := extractMsgs c c' p p' rev ys.length
    let ms2 := extractMsgs c c' q q' rev2 ys2.length
    ∃ m : F, Valid x ys (unblind p.sig (extractT c c' p p')) ms ∧ Valid x2 ys2 (unblind q.sig (extractT c c' q q')) ms2 ∧
      (∀ i m, mapGet rev i = some m → ms[i]? = some m) ∧ (∀ i m, mapGet rev2 i = some m → ms2[i]? = some m) ∧
      (hiddenBases (fun i => (mapGet rev i).isSome) 0 ms)[i]? = some m ∧
      (hiddenBases (fun i => (mapGet rev2 i).isSome) 0 ms2)[j]? = some m := by
  obtain ⟨a1, a2, a3⟩ := ps_pok_extract P hnd p p' x ys rev rev c c' hrev hrev rfl hp hp' hc hj hT
  obtain ⟨b1, b2, b3⟩ := ps_pok_extract P hnd q q' x2 ys2 rev2 rev2 c c' hrev2 hrev2 rfl hq hq' hc hj2 hT2
  have get : ∀ (p : SigProof F S O) (i : Nat) (v : F), p.respForMessage i = .ok v → (p.vc.responses.drop 1)[i]? = some v := by
    intro p i v h
    rcases hz : p.vc.responses with _ | ⟨a, zs⟩
    · rw [(ps_resp_cases p i).1 hz] at h; cases h
    · rw [(ps_resp_cases p i).2 a zs hz] at h
      cases hg : zs[i]? with
      | none => rw [hg] at h; cases h
      | some w => rw [hg] at h; simp only [Res.ok.injEq] at h; simpa [h] using hg
  refine ⟨(c - c')⁻¹ * (v' - v), a1, b1, a2, b2, ?_, ?_⟩
  · rw [a3, List.getElem?_zipWith, get p i v h1, get p' i v' h1']
  · rw [b3, List.getElem?_zipWith, get q j v h2, get q' j v' h2']

/-! ## Unlinkability -/

theorem zipWith_readjust (c : F) : ∀ (bs M M' : List F), bs.length = M.length → M.length = M'.length →
    List.zipWith (fun b s => b - c * s) (List.zipWith (fun z s => z + c * s) (List.zipWith (fun b s => b - c * s) bs M) M') M' =
      List.zipWith (fun b s => b - c * s) bs M
  | [], [], [], _, _ => rfl
  | b :: bs, m :: M, m' :: M', h, h' => by
    simp only [List.zipWith_cons_cons, List.cons.injEq]
    exact ⟨by ring, zipWith_readjust c bs M M' (by simpa using h) (by simpa using h')⟩

/-- **C84** Every proof that can come from one signature can come from any other signature of the same signer whose messages agree with
the revealed ones: for every choice of random values of the first there is one of the second that gives the same proof, under every
challenge.  (The group of the signatures is generated by each of its non-neutral elements.) -/
theorem ps_unlinkable (hcyc : ∀ a b : S, a ≠ 0 → ∃ k : F, b = k • a) (x : F) (ys : List F) (sig sig' : Signature S)
    (ms ms' : List F) (revealed : List Nat) (r t bt : F) (bs : List F) (c : F)
    (hv : Valid x ys sig ms) (hv' : Valid x ys sig' ms') (hnd : revealed.Nodup) (hr : ∀ i ∈ revealed, i < ms.length)
    (hagree : ∀ i ∈ revealed, ms[i]? = ms'[i]?) (hb : bs.length = ms.length - revealed.length) (hr0 : r ≠ 0) :
    ∃ (r' t' bt' : F) (bs' : List F), r' ≠ 0 ∧ bs'.length = ms'.length - revealed.length ∧
      honest P sig' (keygen P x ys).1 ms' revealed r' t' bt' bs' c = honest P sig (keygen P x ys).1 ms revealed r t bt bs c := by
  obtain ⟨hl, h1, h2⟩ := hv
  obtain ⟨hl', h1', h2'⟩ := hv'
  obtain ⟨r', hr'⟩ := hcyc sig'.s1 (r • sig.s1) h1'
  have hr'0 : r' ≠ 0 := by
    rintro rfl
    rw [zero_smul] at hr'
    exact smul_ne_zero hr0 h1 hr'
  let get : Nat → Option F := fun i => if revealed.contains i then ms[i]? else none
  have hget : (fun i => (get i).isSome) = fun i => revealed.contains i := by
    funext i
    simp only [get]
    by_cases h : i ∈ revealed
    · have := hr i h
      simp [h, this]
    · simp [h]
  have hYl : (keygen P x ys).1.Y.length = ys.length := by simp [keygen]
  have hs := msm_split (get := get) 0 (keygen P x ys).1.Y ms (by rw [hYl, hl]) (by
    intro j m hj _
    simp only [get, Nat.zero_add] at hj
    split at hj
    · exact hj
    · cases hj)
  have hs' := msm_split (get := get) 0 (keygen P x ys).1.Y ms' (by rw [hYl, hl']) (by
    intro j m hj _
    simp only [get, Nat.zero_add] at hj
    split at hj
    · rename_i hc
      rw [← hagree j (by simpa using hc)]; exact hj
    · cases hj)
  rw [hget] at hs hs'
  have hM : (hiddenBases (fun i => revealed.contains i) 0 ms).length = ms.length - revealed.length := hidden_length ms hnd hr
  have hM' : (hiddenBases (fun i => revealed.contains i) 0 ms').length = (hiddenBases (fun i => revealed.contains i) 0 ms).length :=
    hiddenBases_length _ _ _ _ (by omega)
  have e3 : ∀ l : List F, msm (keygen P x ys).1.Y l = dot ys l • P.gt := fun l => by simp only [keygen]; exact msm_smul _ _ _
  rw [e3] at hs hs'
  refine ⟨r', t + dot ys ms - dot ys ms', (bt - c * t) + c * (t + dot ys ms - dot ys ms'),
    List.zipWith (fun z s => z + c * s) (List.zipWith (fun b s => b - c * s) bs (hiddenBases (fun i => revealed.contains i) 0 ms))
      (hiddenBases (fun i => revealed.contains i) 0 ms'), hr'0, by
    rw [List.length_zipWith, List.length_zipWith, hM', hM, hb]; omega, ?_⟩
  simp only [honest]
  generalize hiddenBases (fun i => revealed.contains i) 0 ms = M at *
  generalize hiddenBases (fun i => revealed.contains i) 0 ms' = M' at *
  generalize hiddenBases (fun i => revealed.contains i) 0 (keygen P x ys).1.Y = B at *
  generalize msm ((revealedTerms get 0 (keygen P x ys).1.Y).map (·.1)) ((revealedTerms get 0 (keygen P x ys).1.Y).map (·.2)) = R at *
  have hJ : msm (P.gt :: B) ((t + dot ys ms - dot ys ms') :: M') = msm (P.gt :: B) (t :: M) := by
    rw [msm_cons, msm_cons]
    have a : msm B M = dot ys ms • P.gt - R := by rw [hs]; abel
    have a' : msm B M' = dot ys ms' • P.gt - R := by rw [hs']; abel
    rw [a, a']; module
  have hZ := zipWith_readjust c (bt :: bs) (t :: M) ((t + dot ys ms - dot ys ms') :: M') (by simp; omega) (by simp; omega)
  simp only [List.zipWith_cons_cons] at hZ
  have hR : List.zipWith (fun b s => b - c * s)
      ((bt - c * t + c * (t + dot ys ms - dot ys ms')) ::
        List.zipWith (fun z s => z + c * s) (List.zipWith (fun b s => b - c * s) bs M) M')
      ((t + dot ys ms - dot ys ms') :: M') = List.zipWith (fun b s => b - c * s) (bt :: bs) (t :: M) := by
    simp only [List.zipWith_cons_cons]
    exact hZ
  have hC : msm (P.gt :: B) ((bt - c * t + c * (t + dot ys ms - dot ys ms')) ::
      List.zipWith (fun z s => z + c * s) (List.zipWith (fun b s => b - c * s) bs M) M') = msm (P.gt :: B) (bt :: bs) := by
    have e := msm_sub_mul (P.gt :: B) ((bt - c * t + c * (t + dot ys ms - dot ys ms')) ::
        List.zipWith (fun z s => z + c * s) (List.zipWith (fun b s => b - c * s) bs M) M') ((t + dot ys ms - dot ys ms') :: M') c (by
      simp; omega)
    rw [hR, hJ, msm_sub_mul _ _ _ _ (by simp; omega)] at e
    have := congrArg (fun z => z + c • msm (P.gt :: B) (t :: M)) e
    simpa using this.symm
  have hS : r' • (sig'.s2 + (t + dot ys ms - dot ys ms') • sig'.s1) = r • (sig.s2 + t • sig.s1) := by
    rw [h2, h2']
    have : r • ((x + dot ys ms) • sig.s1 + t • sig.s1) = (x + dot ys ms + t) • (r • sig.s1) := by module
    rw [this, hr']; module
  rw [← hr', hS, hJ, hC, hR]

/-! ## Panics -/

theorem lookup_ok_of_range (Y : List O) : ∀ (rev : List (Nat × F)), (∀ p ∈ rev, p.1 < Y.length) → ∃ bs, lookupBases Y rev = .ok bs
  | [], _ => ⟨[], rfl⟩
  | (k, v) :: rev, h => by
    obtain ⟨bs, hb⟩ := lookup_ok_of_range Y rev (fun p hp => h p (List.mem_cons_of_mem _ hp))
    exact ⟨Y[k]'(h (k, v) List.mem_cons_self) :: bs, by
      have hk : k < Y.length := h (k, v) List.mem_cons_self
      simp [lookupBases, List.getElem?_eq_getElem hk, hb]⟩

/-- **C86** exactly when `verify` panics: more revealed messages than the key has generators, or an index out of range in a proof whose
proof of knowledge passes; a proof with a neutral component never panics -/
theorem ps_verify_panics_iff (p : SigProof F S O) (vk : Verkey O) (rev : List (Nat × F)) (c : F) :
    p.verify P vk rev c = .panic ↔ p.sig.s1 ≠ 0 ∧ p.sig.s2 ≠ 0 ∧
      (vk.Y.length < rev.length ∨
        (∃ q ∈ rev, vk.Y.length ≤ q.1) ∧
          p.vc.verify (P.gt :: hiddenBases (fun i => (mapGet rev i).isSome) 0 vk.Y) p.j c = .ok true) := by
  unfold SigProof.verify
  by_cases h1 : p.sig.s1 = 0
  · simp [h1]
  by_cases h2 : p.sig.s2 = 0
  · simp [h2]
  rw [if_neg (by simp [h1, h2])]
  by_cases hl : vk.Y.length < rev.length
  · rw [if_pos hl]; simp [h1, h2, hl]
  rw [if_neg hl]
  cases hv : p.vc.verify (P.gt :: hiddenBases (fun i => (mapGet rev i).isSome) 0 vk.Y) p.j c with
  | err e => simp [liftPoK, hl]
  | panic =>
    exfalso
    by_cases hlen : (P.gt :: hiddenBases (fun i => (mapGet rev i).isSome) 0 vk.Y).length = p.vc.responses.length
    · by_cases he : msm (P.gt :: hiddenBases (fun i => (mapGet rev i).isSome) 0 vk.Y) p.vc.responses + c • p.j = p.vc.commitment
      · rw [((verify_iff p.vc _ p.j c).2 hlen).1.2 he] at hv; cases hv
      · rw [((verify_iff p.vc _ p.j c).2 hlen).2.2 he] at hv; cases hv
    · rw [(verify_iff p.vc _ p.j c).1 hlen] at hv; cases hv
  | ok b =>
    cases b with
    | false => simp [liftPoK, hl]
    | true =>
      simp only [liftPoK, Res.ok_bind, if_true, SigProof.pairingCheck, ne_eq, h1, h2, not_false_eq_true, true_and, hl, false_or,
        and_true]
      by_cases hr : ∃ q ∈ rev, vk.Y.length ≤ q.1
      · simp only [lookup_panic vk.Y rev hr, Res.panic_bind, true_iff]; exact hr
      · obtain ⟨bs, hbs⟩ := lookup_ok_of_range vk.Y rev (by push Not at hr; exact hr)
        simp [hbs, hr]

/-- **C86** (negated) from every accepted proof a receiver can be made to panic: adding to the revealed messages an entry with an index
out of range (without changing anything else in the proof) does it -/
theorem ps_extra_index_panics (p : SigProof F S O) (vk : Verkey O) (rev : List (Nat × F)) (c m : F) (k : Nat)
    (hnd : (rev.map (·.1)).Nodup) (hk : vk.Y.length ≤ k) (h : p.verify P vk rev c = .ok true) :
    p.verify P vk ((k, m) :: rev) c = .panic := by
  have h' := (pok_verify_iff P _ _ _ _ hnd).1 h
  rw [ps_verify_panics_iff]
  refine ⟨h'.1, h'.2.1, Or.inr ⟨⟨(k, m), List.mem_cons_self, hk⟩, ?_⟩⟩
  have hb : hiddenBases (fun i => (mapGet ((k, m) :: rev) i).isSome) 0 vk.Y =
      hiddenBases (fun i => (mapGet rev i).isSome) 0 vk.Y := by
    apply hiddenBases_congr
    intro j hj1
    rw [mapGet_cons, if_neg (by omega)]
  rw [hb]
  exact ((verify_iff p.vc _ p.j c).2 (by rw [List.length_cons, h'.2.2.2.1])).1.2 h'.2.2.2.2.1

/-! ## Wire format -/

/-- **C85** (negated) With the element size of the signature group instead of that of the other group, `ProofOtherGroup::from_bytes`
accepts no input at all, if decoding an element refuses strings of the wrong length: not even the output of `to_bytes`. -/
theorem ps_proof_never_parses (size : Nat) (cO : Codec O) (cF : Codec F) (hdec : ∀ d, d.length ≠ cO.size → cO.dec d = none)
    (hs : size ≠ cO.size) (data : Bytes) : ∃ e, proofOtherFromBytes size cO cF data = .err e := by
  unfold proofOtherFromBytes
  by_cases h : data.length < size + 4
  · exact ⟨_, if_pos h⟩
  · rw [if_neg h, hdec (data.take size) (by rw [List.length_take]; omega)]
    exact ⟨_, rfl⟩

/-- **C85** with the right size it is the parser of `ProofG1`/`ProofG2`, so proofs survive the round trip -/
theorem ps_proof_round_trip (cO : Codec O) (cF : Codec F) (pf : PoK.Proof F O) (rest : Bytes) (h : pf.responses.length < 2 ^ 32) :
    proofOtherFromBytes cO.size cO cF (pf.toBytes cO cF ++ rest) = .ok pf := by
  have h1 := proof_round_trip cO cF pf h rest
  rw [← h1]
  unfold proofOtherFromBytes Proof.fromBytes readElem
  have hl : cO.size + 4 ≤ (pf.toBytes cO cF ++ rest).length := by
    simp only [PoK.Proof.toBytes, List.length_append, cO.enc_length, beU32_length]; omega
  rw [if_neg (by omega), if_neg (by omega), if_neg (by omega)]
  cases cO.dec ((pf.toBytes cO cF ++ rest).take cO.size) with
  | none => rfl
  | some g => simp

/-- **C85** the two generators of `Params::new` come from different strings, whatever the label -/
theorem ps_params_inputs_distinct (label label' : Bytes) (h : label.length = label'.length) :
    (paramsInputs label).1 ≠ (paramsInputs label').2 := by
  intro e
  have := congrArg List.length e
  simp only [paramsInputs, List.length_append, h] at this
  have h2 : " : g".toUTF8.toList.length = 4 := by decide +kernel
  have h3 : " : g_tilde".toUTF8.toList.length = 10 := by decide +kernel
  omega

end

/-! ## Concrete instances: keys with three messages over the field with 101 elements -/
namespace Toy
open Verif.Toy
local instance : Fact (Nat.Prime 101) := fact101

abbrev K := ZMod 101
@[reducible] def par : Params K K K K := ⟨2, 3, toyE⟩
@[reducible] def ys : List K := [3, 5, 11]
@[reducible] def vk : Verkey K := (keygen par 7 ys).1
@[reducible] def sig : Signature K := ⟨10, 57⟩
@[reducible] def sig2 : Signature K := ⟨4, (7 + 3 * 4 + 5 * 50 + 11 * 60) * 4⟩

theorem nondeg : Nondeg par := by
  intro a h
  simp only [toyE_apply] at h
  exact (mul_eq_zero.1 h).resolve_right (by decide)

theorem nondegO : ∀ (a b : K), a ≠ 0 → par.e a b = 0 → b = 0 := by
  intro a b ha h
  simp only [toyE_apply] at h
  exact (mul_eq_zero.1 h).resolve_left ha

/-- signing three messages -/
example : sigNew par [4, 6, 8] ⟨7, ys⟩ 5 = .ok sig := by decide +kernel
example := ps_sign_verify par nondeg [4, 6, 8] 7 ys 5 rfl (by decide) (by decide) (by decide +kernel)
theorem sig_ok : sig.verify par [4, 6, 8] vk = .ok true := by
  rw [verify_true_pairing]; exact ⟨by decide, by decide, rfl, by simp only [toyE_apply]; decide +kernel⟩
theorem sig_valid : Valid 7 ys sig [4, 6, 8] := ⟨rfl, by decide, by decide +kernel⟩
theorem sig2_valid : Valid 7 ys sig2 [4, 50, 60] := ⟨rfl, by decide, by decide +kernel⟩
/-- another message is refused -/
example : sig.verify par [4, 6, 9] vk ≠ .ok true := by
  rw [Ne, ps_verify_iff par nondeg]
  rintro ⟨⟨-, -, h⟩, -⟩
  revert h; decide +kernel
/-- the exceptional case is met by a message -/
example := ps_sign_exceptional par ([65, 0, 0] : List K) 7 ys 5 rfl (Or.inr (by decide +kernel))
/-- two committed messages, one known to the issuer -/
example := ps_blind_eq_direct par [4, 6] [8] 7 ys 20 5 (by decide) rfl
example : (blindingKey par ⟨7, ys⟩).Y = [6, 10, 22] := by decide +kernel
/-- an issuer's check of the commitment `20 g + 4 Y0 + 6 Y1` with challenges 3 and 9 -/
example := ps_blind_sound par (20 * 2 + 4 * 6 + 6 * 10 : K) [8] 7 ys 5 2 rfl (by decide) (by decide)
  ⟨msm [6, 10, 2] ([30, 31, 32] : List K), [30 - 3 * 4, 31 - 3 * 6, 32 - 3 * 20]⟩
  ⟨msm [6, 10, 2] ([30, 31, 32] : List K), [30 - 9 * 4, 31 - 9 * 6, 32 - 9 * 20]⟩ 3 9 rfl (by decide)
  (((verify_iff _ _ _ _).2 (by decide +kernel)).1.2 (by decide +kernel))
  (((verify_iff _ _ _ _).2 (by decide +kernel)).1.2 (by decide +kernel))

/-- revealing message 1, with random values 2, 9, 13 and blindings 17, 19 -/
@[reducible] def pf (c : K) : SigProof K K K := honest par sig vk [4, 6, 8] [1] 2 9 13 [17, 19] c

theorem discl : Discloses ([4, 6, 8] : List K) [1] [(1, 6)] := by
  refine ⟨by simp, by simp, ?_⟩
  intro i m h
  rw [mapGet_cons] at h
  by_cases e : 1 = i
  · subst e; simp at h; simp [h]
  · rw [if_neg e, mapGet_nil] at h; cases h

theorem pf_ok (c : K) : (pf c).verify par vk [(1, 6)] c = .ok true := by
  rw [ps_honest_iff par sig vk [4, 6, 8] [1] [(1, 6)] 2 9 13 [17, 19] c (by simp) (by simp) rfl discl rfl]
  exact ⟨by decide, by decide, by simp only [toyE_apply]; decide +kernel⟩

example := ps_pok_complete par sig vk [4, 6, 8] none [1] [(1, 6)] 2 9 13 (fun i => (i : K)) sig_ok (by simp) (by simp) discl
  (by simp) (by decide) (by decide)
example := ps_pok_complete par sig vk [4, 6, 8] (some [17, 19]) [1] [(1, 6)] 2 9 13 (fun i => (i : K)) sig_ok (by simp) (by simp)
  discl (by simp) (by decide) (by decide)
example := ps_pok_sound par nondeg (pf 3) (pf 4) 7 ys [(1, 6)] 3 4 (by simp) (pf_ok 3) (pf_ok 4) (by decide) rfl rfl
example : unblind (pf 3).sig (extractT 3 4 (pf 3) (pf 4)) = ⟨20, 114⟩ ∧ extractMsgs 3 4 (pf 3) (pf 4) [(1, 6)] 3 = [4, 6, 8] := by
  decide +kernel
example := ps_single_revealed_bound par nondeg nondegO codec101 codec101 (pf 3) (pf 3) vk [] 1 6 6 [1] 3 3 (by simp)
  (by decide +kernel) (pf_ok 3) (pf_ok 3) rfl
example := ps_equal_responses_sound par nondeg (pf 3) (pf 4) (pf 3) (pf 4) 7 7 ys ys [(1, 6)] [(1, 6)] 3 4 (by simp) (by simp)
  (pf_ok 3) (pf_ok 4) (pf_ok 3) (pf_ok 4) (by decide) rfl rfl rfl rfl 1 1 (19 - 3 * 8) (19 - 4 * 8)
  (by rw [ps_resp_spec par _ _ _ _ _ _ _ _ _ (by simp) (by simp) rfl]; rfl)
  (by rw [ps_resp_spec par _ _ _ _ _ _ _ _ _ (by simp) (by simp) rfl]; rfl)
  (by rw [ps_resp_spec par _ _ _ _ _ _ _ _ _ (by simp) (by simp) rfl]; rfl)
  (by rw [ps_resp_spec par _ _ _ _ _ _ _ _ _ (by simp) (by simp) rfl]; rfl)
/-- two signatures whose first messages agree -/
example := ps_unlinkable par (fun a b ha => ⟨b * a⁻¹, by
    rw [smul_eq_mul, mul_assoc, inv_mul_cancel₀ ha, mul_one]⟩) 7 ys sig sig2 [4, 6, 8] [4, 50, 60] [0] 2 9 13 [17, 19] 3
  sig_valid sig2_valid (by simp) (by simp) (by simp) rfl (by decide)
example := ps_extra_index_panics par (pf 3) vk [(1, 6)] 3 77 3 (by simp) (by decide) (pf_ok 3)

/-- G1 and G2 of the library have encodings of 97 and 192 bytes; here of one and two -/
example (data : Bytes) := ps_proof_never_parses 2 codec101 codec101 (by
  intro d h
  match d, h with
  | [], _ => rfl
  | [_], h => exact absurd rfl h
  | _ :: _ :: _, _ => rfl) (by decide) data

end Toy
end Verif.PS
