import Verif.BBS.Wire
import Verif.Props.BBS
import Verif.Toy
import Mathlib.Tactic.IntervalCases
import Mathlib.Tactic.Tauto
/-!
# Properties of the BBS+ wire formats (C45, C77, C81)
-/
set_option linter.unusedSectionVars false
set_option linter.unusedSimpArgs false
set_option linter.unusedVariables false
namespace Verif.BBS
open Verif Verif.PoK

/-! ## Byte helpers -/

theorem slice_append {ε : Type} (a b c : Bytes) :
    (slice (a ++ b ++ c) a.length (a.length + b.length) : Res ε Bytes) = .ok b := by
  unfold slice
  rw [if_pos ⟨by omega, by simp only [List.length_append]; omega⟩]
  rw [List.take_left' (by simp)]
  simp

theorem readU32_append {ε : Type} (a c : Bytes) (n : Nat) (hn : n < 2 ^ 32) :
    (readU32 (a ++ beU32 n ++ c) a.length : Res ε Nat) = .ok n := by
  unfold readU32
  have := slice_append (ε := ε) a (beU32 n) c
  rw [beU32_length] at this
  rw [this]
  simp [ofBe_beU32_of_lt hn]

theorem readU32_front {ε : Type} (c : Bytes) (n : Nat) (hn : n < 2 ^ 32) :
    (readU32 (beU32 n ++ c) 0 : Res ε Nat) = .ok n := by
  simpa using readU32_append (ε := ε) [] c n hn

theorem readElem_length {R : Type} {c : Codec R} {b rest : Bytes} {r : R} (h : readElem c b = some (r, rest)) :
    rest.length + c.size = b.length := by
  unfold readElem at h
  split at h
  · simp at h
  · simp only [Option.map_eq_some_iff, Prod.mk.injEq] at h
    obtain ⟨_, _, _, rfl⟩ := h
    simp only [List.length_drop]; omega

section
variable {F G1 G2 GT : Type} [Field F] [AddCommGroup G1] [Module F G1] [AddCommGroup G2] [Module F G2]
  [AddCommGroup GT] [Module F GT] [DecidableEq F] [DecidableEq G1] [DecidableEq G2] [DecidableEq GT]
variable (c1 : Codec G1) (c2 : Codec G2) (cF : Codec F)

/-! ## Round trips -/

theorem pk_bytes_length (pk : PublicKey G1 G2) :
    (pk.toBytes c1 c2).length = c2.size + c1.size + 4 + pk.h.length * c1.size := by
  simp only [PublicKey.toBytes, List.length_append, flatten_enc_length, c1.enc_length, c2.enc_length, beU32_length]

/-- **C45** a public key without neutral elements survives serialization, also when followed by a multiple of the size of a G1
element (which is ignored) -/
theorem pk_round_trip (pk : PublicKey G1 G2) (hwf : WellFormed pk) (hn : pk.h.length < 2 ^ 32) (hs : c1.size ∣ c2.size)
    (rest : Bytes) (hr : c1.size ∣ rest.length) :
    PublicKey.fromBytes c1 c2 (pk.toBytes c1 c2 ++ rest) = .ok pk := by
  unfold PublicKey.fromBytes
  have hl : (pk.toBytes c1 c2 ++ rest).length = c2.size + c1.size + 4 + pk.h.length * c1.size + rest.length := by
    rw [List.length_append, pk_bytes_length]
  rw [if_neg (by omega), if_neg]
  · have e1 : pk.toBytes c1 c2 ++ rest =
        c2.enc pk.w ++ (c1.enc pk.h0 ++ (beU32 pk.h.length ++ ((pk.h.map c1.enc).flatten ++ rest))) := by
      simp [PublicKey.toBytes]
    rw [e1, readElem_enc]
    simp only [Res.ofOption_some, Res.ok_bind]
    rw [readElem_enc]
    simp only [Res.ofOption_some, Res.ok_bind]
    rw [readU32_front _ _ hn]
    simp only [Res.ok_bind]
    rw [List.drop_left' (beU32_length _), readMany_enc]
    simp only [Res.ofOption_some, Res.ok_bind]
    rw [(validate_ok pk).2 hwf]
    rfl
  · rw [hl]
    simp only [ne_eq, not_not]
    have : c2.size + c1.size + 4 + pk.h.length * c1.size + rest.length - 4 =
        c2.size + c1.size + pk.h.length * c1.size + rest.length := by omega
    rw [this]
    exact Nat.mod_eq_zero_of_dvd ((((hs.add (dvd_refl _)).add (dvd_mul_left _ _))).add hr)

/-- **C45** both forms of a signature are parsed back by `try_from`, which chooses the form by the length -/
theorem sig_round_trip (c1' : Codec G1) (s : Signature F G1) (hne : c1.size ≠ c1'.size) :
    Signature.tryFrom c1 cF c1' (s.toBytes c1 cF) = .ok s ∧ Signature.tryFrom c1 cF c1' (s.toBytes c1' cF) = .ok s := by
  have hl : ∀ c : Codec G1, (s.toBytes c cF).length = c.size + cF.size + cF.size := by
    intro c; simp only [Signature.toBytes, List.length_append, c.enc_length, cF.enc_length]
  have e1 : ∀ c : Codec G1, s.toBytes c cF = c.enc s.a ++ (cF.enc s.e ++ (cF.enc s.s ++ [])) := by
    intro c; simp [Signature.toBytes]
  unfold Signature.tryFrom
  rw [hl, hl, if_pos (by omega), if_neg (by omega)]
  dsimp only
  constructor
  · rw [e1, readElem_enc]
    simp only [Res.ofOption_some, Res.ok_bind]
    rw [readElem_enc]
    simp only [Res.ofOption_some, Res.ok_bind]
    rw [readElem_enc]
    rfl
  · rw [e1, readElem_enc]
    simp only [Res.ofOption_some, Res.ok_bind]
    rw [readElem_enc]
    simp only [Res.ofOption_some, Res.ok_bind]
    rw [readElem_enc]
    rfl

theorem pokProof_length (p : PoK.Proof F G1) : (p.toBytes c1 cF).length = c1.size + 4 + p.responses.length * cF.size := by
  simp only [Proof.toBytes, List.length_append, flatten_enc_length, c1.enc_length, beU32_length]

/-- a proof fits the 32-bit length fields -/
def FitsP (c1 : Codec G1) (cF : Codec F) (p : SigProof F G1) : Prop :=
  p.vc1.responses.length < 2 ^ 32 ∧ p.vc2.responses.length < 2 ^ 32 ∧ (p.vc1.toBytes c1 cF).length < 2 ^ 32

/-- **C45** proofs of knowledge of a signature survive serialization -/
theorem sigproof_round_trip (p : SigProof F G1) (hf : FitsP c1 cF p) (rest : Bytes) :
    SigProof.fromBytes c1 cF (p.toBytes c1 cF ++ rest) = .ok p := by
  obtain ⟨h1, h2, h3⟩ := hf
  unfold SigProof.fromBytes
  have hl : (p.toBytes c1 cF ++ rest).length = c1.size + c1.size + c1.size + 4 + (p.vc1.toBytes c1 cF).length +
      (p.vc2.toBytes c1 cF).length + rest.length := by
    simp only [SigProof.toBytes, List.length_append, c1.enc_length, beU32_length]
  rw [if_neg (by omega)]
  have e1 : p.toBytes c1 cF ++ rest = c1.enc p.aPrime ++ (c1.enc p.aBar ++ (c1.enc p.d ++
      (beU32 (p.vc1.toBytes c1 cF).length ++ (p.vc1.toBytes c1 cF ++ (p.vc2.toBytes c1 cF ++ rest))))) := by
    simp [SigProof.toBytes]
  set A := c1.enc p.aPrime ++ c1.enc p.aBar ++ c1.enc p.d with hA
  have hAl : A.length = c1.size + c1.size + c1.size := by simp only [hA, List.length_append, c1.enc_length]
  have e2 : p.toBytes c1 cF ++ rest = A ++ beU32 (p.vc1.toBytes c1 cF).length ++
      (p.vc1.toBytes c1 cF ++ (p.vc2.toBytes c1 cF ++ rest)) := by
    simp [SigProof.toBytes, hA]
  have e3 : p.toBytes c1 cF ++ rest = (A ++ beU32 (p.vc1.toBytes c1 cF).length) ++ p.vc1.toBytes c1 cF ++
      (p.vc2.toBytes c1 cF ++ rest) := by
    simp [SigProof.toBytes, hA]
  have s1 : (readU32 (p.toBytes c1 cF ++ rest) (c1.size + c1.size + c1.size) : Res Error Nat) =
      .ok (p.vc1.toBytes c1 cF).length := by
    rw [e2, ← hAl, readU32_append _ _ _ h3]
  have hBl : (A ++ beU32 (p.vc1.toBytes c1 cF).length).length = c1.size + c1.size + c1.size + 4 := by
    rw [List.length_append, hAl, beU32_length]
  have s2 : (slice (p.toBytes c1 cF ++ rest) (c1.size + c1.size + c1.size + 4)
      (c1.size + c1.size + c1.size + 4 + (p.vc1.toBytes c1 cF).length) : Res Error Bytes) = .ok (p.vc1.toBytes c1 cF) := by
    rw [e3, ← hBl, slice_append]
  have s3 : (p.toBytes c1 cF ++ rest).drop (c1.size + c1.size + c1.size + 4 + (p.vc1.toBytes c1 cF).length) =
      p.vc2.toBytes c1 cF ++ rest := by
    rw [e3]
    apply List.drop_left'
    rw [List.length_append, hBl]
  have r1 : readElem c1 (p.toBytes c1 cF ++ rest) = some (p.aPrime, c1.enc p.aBar ++ (c1.enc p.d ++
      (beU32 (p.vc1.toBytes c1 cF).length ++ (p.vc1.toBytes c1 cF ++ (p.vc2.toBytes c1 cF ++ rest))))) := by
    rw [e1, readElem_enc]
  rw [r1]
  simp only [Res.ofOption_some, Res.ok_bind]
  rw [readElem_enc]
  simp only [Res.ofOption_some, Res.ok_bind]
  rw [readElem_enc]
  simp only [Res.ofOption_some, Res.ok_bind]
  rw [s1]
  simp only [Res.ok_bind]
  rw [s2]
  simp only [Res.ok_bind]
  have p1 := proof_round_trip c1 cF p.vc1 h1 []
  rw [List.append_nil] at p1
  rw [p1, s3, proof_round_trip c1 cF p.vc2 h2 rest]
  rfl

/-- inserting entries in ascending order appends them -/
theorem mapInsert_last {A : Type} (k : Nat) (v : A) : ∀ m : List (Nat × A), (∀ p ∈ m, p.1 < k) →
    mapInsert k v m = m ++ [(k, v)]
  | [], _ => rfl
  | p :: m, h => by
    have hp := h p List.mem_cons_self
    rw [mapInsert, if_neg (by omega), if_neg (by omega), mapInsert_last k v m (fun q hq => h q (List.mem_cons_of_mem _ hq))]
    rfl

theorem readRevealed_round : ∀ (rev acc : List (Nat × F)) (pre rest : Bytes), Sorted (acc ++ rev) → (∀ p ∈ rev, p.1 < 2 ^ 32) →
    readRevealed cF (pre ++ (rev.map (fun q => beU32 q.1 ++ cF.enc q.2)).flatten ++ rest) rev.length pre.length acc =
      .ok (acc ++ rev)
  | [], acc, pre, rest, _, _ => by simp [readRevealed]
  | q :: rev, acc, pre, rest, hs, hb => by
    have hq := hb q List.mem_cons_self
    have hlt : ∀ p ∈ acc, p.1 < q.1 := fun p hp => (List.pairwise_append.1 hs).2.2 p hp q List.mem_cons_self
    have hs' : Sorted ((acc ++ [q]) ++ rev) := by simpa using hs
    have ih := readRevealed_round rev (acc ++ [q]) (pre ++ beU32 q.1 ++ cF.enc q.2) rest hs'
      (fun p hp => hb p (List.mem_cons_of_mem _ hp))
    have e0 : pre ++ ((q :: rev).map (fun q => beU32 q.1 ++ cF.enc q.2)).flatten ++ rest =
        pre ++ beU32 q.1 ++ cF.enc q.2 ++ (rev.map (fun q => beU32 q.1 ++ cF.enc q.2)).flatten ++ rest := by
      simp
    rw [e0]
    have hl1 : (pre ++ beU32 q.1).length = pre.length + 4 := by rw [List.length_append, beU32_length]
    have hl2 : (pre ++ beU32 q.1 ++ cF.enc q.2).length = pre.length + 4 + cF.size := by
      rw [List.length_append, hl1, cF.enc_length]
    have s1 : (readU32 (pre ++ beU32 q.1 ++ cF.enc q.2 ++ (rev.map (fun q => beU32 q.1 ++ cF.enc q.2)).flatten ++ rest)
        pre.length : Res Error Nat) = .ok q.1 := by
      rw [show pre ++ beU32 q.1 ++ cF.enc q.2 ++ (rev.map (fun q => beU32 q.1 ++ cF.enc q.2)).flatten ++ rest =
        pre ++ beU32 q.1 ++ (cF.enc q.2 ++ (rev.map (fun q => beU32 q.1 ++ cF.enc q.2)).flatten ++ rest) by simp]
      exact readU32_append _ _ _ hq
    have s2 : (slice (pre ++ beU32 q.1 ++ cF.enc q.2 ++ (rev.map (fun q => beU32 q.1 ++ cF.enc q.2)).flatten ++ rest)
        (pre.length + 4) (pre.length + 4 + cF.size) : Res Error Bytes) = .ok (cF.enc q.2) := by
      have := slice_append (ε := Error) (pre ++ beU32 q.1) (cF.enc q.2)
        ((rev.map (fun q => beU32 q.1 ++ cF.enc q.2)).flatten ++ rest)
      rw [hl1, cF.enc_length] at this
      rw [← this]
      simp
    simp only [List.length_cons, readRevealed]
    rw [s1]
    simp only [Res.ok_bind]
    rw [s2]
    simp only [Res.ok_bind, cF.dec_enc, Res.unwrap_some]
    rw [mapInsert_last _ _ _ hlt, ← hl2]
    rw [ih]
    simp

/-- **C45** the prover's answer survives serialization -/
theorem signature_proof_round_trip (sp : SignatureProof F G1) (hf : FitsP c1 cF sp.proof)
    (hl : (sp.proof.toBytes c1 cF).length < 2 ^ 32) (hs : Sorted sp.revealed) (hn : sp.revealed.length < 2 ^ 32)
    (hk : ∀ p ∈ sp.revealed, p.1 < 2 ^ 32) :
    SignatureProof.fromBytes c1 cF (sp.toBytes c1 cF) = .ok sp := by
  unfold SignatureProof.fromBytes
  set pb := sp.proof.toBytes c1 cF with hpb
  set rv := (sp.revealed.map (fun q => beU32 q.1 ++ cF.enc q.2)).flatten with hrv
  have e0 : sp.toBytes c1 cF = beU32 pb.length ++ pb ++ beU32 sp.revealed.length ++ rv := rfl
  rw [e0]
  rw [if_neg (by simp only [List.length_append, beU32_length]; omega)]
  have s1 : (readU32 (beU32 pb.length ++ pb ++ beU32 sp.revealed.length ++ rv) 0 : Res Error Nat) = .ok pb.length := by
    rw [List.append_assoc, List.append_assoc]; exact readU32_front _ _ hl
  have s2 : (slice (beU32 pb.length ++ pb ++ beU32 sp.revealed.length ++ rv) 4 (pb.length + 4) : Res Error Bytes) = .ok pb := by
    have := slice_append (ε := Error) (beU32 pb.length) pb (beU32 sp.revealed.length ++ rv)
    rw [beU32_length, Nat.add_comm 4] at this
    rw [← this]
    simp
  have hl4 : (beU32 pb.length ++ pb).length = pb.length + 4 := by rw [List.length_append, beU32_length, Nat.add_comm]
  have s3 : (readU32 (beU32 pb.length ++ pb ++ beU32 sp.revealed.length ++ rv) (pb.length + 4) : Res Error Nat) =
      .ok sp.revealed.length := by
    rw [← hl4]; exact readU32_append _ _ _ hn
  have s4 := readRevealed_round cF sp.revealed [] (beU32 pb.length ++ pb ++ beU32 sp.revealed.length) [] (by simpa using hs) hk
  rw [← hrv, List.append_nil, List.length_append, hl4, beU32_length] at s4
  rw [s1]
  simp only [Res.ok_bind]
  rw [s2]
  simp only [Res.ok_bind]
  have p1 := sigproof_round_trip c1 cF sp.proof hf []
  rw [List.append_nil, ← hpb] at p1
  rw [p1]
  simp only [Res.ok_bind]
  rw [s3]
  simp only [Res.ok_bind]
  rw [s4]
  rfl

/-- **C45** the holder's blind signature context survives serialization -/
theorem blind_ctx_round_trip (x : BlindCtx F G1) (hn : x.proof.responses.length < 2 ^ 32) (rest : Bytes) :
    BlindCtx.fromBytes c1 cF (x.toBytes c1 cF ++ rest) = .ok x := by
  unfold BlindCtx.fromBytes
  have hl : (x.toBytes c1 cF ++ rest).length = c1.size + cF.size + (c1.size + 4 + x.proof.responses.length * cF.size) +
      rest.length := by
    simp only [BlindCtx.toBytes, List.length_append, pokProof_length, c1.enc_length, cF.enc_length]
  rw [if_neg (by omega)]
  have e1 : x.toBytes c1 cF ++ rest = c1.enc x.commitment ++ (cF.enc x.challenge ++ (x.proof.toBytes c1 cF ++ rest)) := by
    simp [BlindCtx.toBytes]
  rw [e1, readElem_enc]
  simp only [Res.ofOption_some, Res.ok_bind]
  rw [readElem_enc]
  simp only [Res.ofOption_some, Res.ok_bind]
  have e2 : (c1.enc x.commitment ++ (cF.enc x.challenge ++ (x.proof.toBytes c1 cF ++ rest))).drop (c1.size + cF.size) =
      x.proof.toBytes c1 cF ++ rest := by
    rw [← List.append_assoc]
    apply List.drop_left'
    rw [List.length_append, c1.enc_length, cF.enc_length]
  rw [e2, proof_round_trip c1 cF x.proof hn rest]
  rfl

/-! ## Bit vectors -/

/-- bit `i` of a little-endian byte string -/
def bitAt (b : Bytes) (i : Nat) : Bool := match b[i / 8]? with
  | some x => x.toNat.testBit (i % 8)
  | none => false

theorem toNat_setBit (x : UInt8) (j k : Nat) (hj : j < 8) :
    (x ||| (1 : UInt8) <<< UInt8.ofNat j).toNat.testBit k = (x.toNat.testBit k || decide (k = j)) := by
  rw [UInt8.toNat_or, Nat.testBit_or]
  congr 1
  have : ((1 : UInt8) <<< UInt8.ofNat j).toNat = 2 ^ j := by
    interval_cases j <;> rfl
  rw [this, Nat.testBit_two_pow]
  simp only [decide_eq_decide]
  exact eq_comm

theorem setBits_spec : ∀ (rs : List Nat) (b : Bytes), (∀ r ∈ rs, r < 8 * b.length) →
    ∃ b', setBits rs b = .ok b' ∧ b'.length = b.length ∧ ∀ i, bitAt b' i = (bitAt b i || decide (i ∈ rs))
  | [], b, _ => ⟨b, rfl, rfl, by simp⟩
  | r :: rs, b, h => by
    have hr : r / 8 < b.length := by have := h r List.mem_cons_self; omega
    obtain ⟨b', h1, h2, h3⟩ := setBits_spec rs (b.modify (r / 8) (fun x => x ||| (1 : UInt8) <<< UInt8.ofNat (r % 8)))
      (fun q hq => by rw [List.length_modify]; exact h q (List.mem_cons_of_mem _ hq))
    refine ⟨b', by rw [setBits, if_pos hr, h1], by rw [h2, List.length_modify], fun i => ?_⟩
    rw [h3]
    have : bitAt (b.modify (r / 8) (fun x => x ||| (1 : UInt8) <<< UInt8.ofNat (r % 8))) i = (bitAt b i || decide (i = r)) := by
      unfold bitAt
      rw [List.getElem?_modify]
      by_cases hi : r / 8 = i / 8
      · simp only [if_pos hi]
        have hb : i / 8 < b.length := by omega
        rw [List.getElem?_eq_getElem hb]
        simp only [Option.map_eq_map, Option.map_some]
        rw [toNat_setBit _ _ _ (Nat.mod_lt _ (by omega))]
        congr 1
        simp only [decide_eq_decide]
        omega
      · simp only [if_neg hi, id_map']
        have : ¬ (i = r) := by rintro rfl; exact hi rfl
        simp [this]
    rw [this]
    simp only [List.mem_cons, Bool.or_assoc, Bool.decide_or]

theorem setInsert_mem' (i j : Nat) : ∀ l : List Nat, j ∈ setInsert i l ↔ j = i ∨ j ∈ l
  | [] => by simp [setInsert]
  | k :: l => by
    unfold setInsert
    split_ifs with h1 h2
    · simp
    · subst h2; simp
    · simp only [List.mem_cons, setInsert_mem' i j l]; tauto

theorem setInsert_sorted (i : Nat) : ∀ l : List Nat, l.Pairwise (· < ·) → (setInsert i l).Pairwise (· < ·)
  | [], _ => by simp [setInsert]
  | k :: l, h => by
    unfold setInsert
    rw [List.pairwise_cons] at h
    split_ifs with h1 h2
    · rw [List.pairwise_cons, List.pairwise_cons]
      refine ⟨fun a ha => ?_, h⟩
      rcases List.mem_cons.1 ha with rfl | ha
      · exact h1
      · exact h1.trans (h.1 a ha)
    · rw [List.pairwise_cons]; exact h
    · rw [List.pairwise_cons]
      refine ⟨fun a ha => ?_, setInsert_sorted i l h.2⟩
      rcases (setInsert_mem' i a l).1 ha with rfl | ha
      · omega
      · exact h.1 a ha

theorem byteBits_spec (v : Nat) : ∀ (s : Nat) (acc : List Nat) (u : Nat), acc.Pairwise (· < ·) →
    ((byteBits v s acc u).1).Pairwise (· < ·) ∧
    (∀ j, j ∈ (byteBits v s acc u).1 ↔ j ∈ acc ∨ (s ≤ j ∧ v.testBit (j - s) = true)) ∧
    ∃ k, (byteBits v s acc u).2 = u + k ∧ v < 2 ^ k ∧ (v ≠ 0 → 2 ^ (k - 1) ≤ v) ∧ (v = 0 → k = 0) := by
  induction v using Nat.strongRecOn with
  | _ v ih =>
    intro s acc u hs
    unfold byteBits
    by_cases hv : v = 0
    · subst hv
      simp [hs]
    · rw [dif_neg hv]
      obtain ⟨h1, h2, k, h3, h4, h5, h6⟩ := ih (v / 2) (by omega) (s + 1) (if v % 2 = 1 then setInsert s acc else acc) (u + 1)
        (by split_ifs; exacts [setInsert_sorted s acc hs, hs])
      refine ⟨h1, fun j => ?_, k + 1, by omega, ?_, fun _ => ?_, fun h => absurd h hv⟩
      · rw [h2]
        have hm : j ∈ (if v % 2 = 1 then setInsert s acc else acc) ↔ j ∈ acc ∨ (j = s ∧ v % 2 = 1) := by
          split_ifs with hodd
          · rw [setInsert_mem']; tauto
          · simp [hodd]
        rw [hm]
        have hb : (s ≤ j ∧ v.testBit (j - s) = true) ↔ (j = s ∧ v % 2 = 1) ∨ (s + 1 ≤ j ∧ (v / 2).testBit (j - (s + 1)) = true) := by
          rcases Nat.lt_trichotomy j s with hlt | heq | hgt
          · constructor
            · rintro ⟨h, _⟩; omega
            · rintro (⟨h, _⟩ | ⟨h, _⟩) <;> omega
          · subst heq
            simp [Nat.testBit_zero]
          · have e : j - s = (j - (s + 1)) + 1 := by omega
            rw [e, Nat.testBit_succ]
            constructor
            · rintro ⟨_, h⟩; exact Or.inr ⟨by omega, h⟩
            · rintro (⟨h, _⟩ | ⟨_, h⟩)
              · omega
              · exact ⟨by omega, h⟩
        rw [hb]; exact or_assoc
      · rw [Nat.pow_succ]; omega
      · by_cases hv2 : v / 2 = 0
        · have := h6 hv2; subst this; simp; omega
        · have := h5 hv2
          have hk : k ≠ 0 := by
            rintro rfl; simp at h4; omega
          obtain ⟨k', rfl⟩ := Nat.exists_eq_succ_of_ne_zero hk
          simp only [Nat.succ_eq_add_one, Nat.add_sub_cancel] at this ⊢
          rw [Nat.pow_succ]; omega

theorem byteBits_used (b : UInt8) (s : Nat) (acc : List Nat) (hs : acc.Pairwise (· < ·)) :
    (byteBits b.toNat s acc 0).2 + (8 - (byteBits b.toNat s acc 0).2) = 8 := by
  obtain ⟨_, _, k, h3, h4, h5, h6⟩ := byteBits_spec b.toNat s acc 0 hs
  have hb := b.toNat_lt
  by_cases hv : b.toNat = 0
  · have := h6 hv; omega
  · have h := h5 hv
    have : k - 1 < 8 := by
      by_contra hc
      have : (2 : Nat) ^ 8 ≤ 2 ^ (k - 1) := Nat.pow_le_pow_right (by omega) (by omega)
      omega
    omega

theorem bytesToRevealed_spec : ∀ (b : Bytes) (s : Nat) (acc : List Nat), acc.Pairwise (· < ·) →
    (bytesToRevealed b s acc).Pairwise (· < ·) ∧
    ∀ j, j ∈ bytesToRevealed b s acc ↔ j ∈ acc ∨ (s ≤ j ∧ bitAt b (j - s) = true)
  | [], s, acc, hs => by simp [bytesToRevealed, hs, bitAt]
  | x :: b, s, acc, hs => by
    obtain ⟨h1, h2, -⟩ := byteBits_spec x.toNat s acc 0 hs
    have h8 := byteBits_used x s acc hs
    obtain ⟨h3, h4⟩ := bytesToRevealed_spec b (s + 8) (byteBits x.toNat s acc 0).1 h1
    have e : bytesToRevealed (x :: b) s acc = bytesToRevealed b (s + 8) (byteBits x.toNat s acc 0).1 := by
      rw [bytesToRevealed]
      simp only []
      rw [Nat.add_assoc, h8]
    rw [e]
    refine ⟨h3, fun j => ?_⟩
    rw [h4, h2]
    have hx := x.toNat_lt
    have key : (s ≤ j ∧ bitAt (x :: b) (j - s) = true) ↔
        (s ≤ j ∧ x.toNat.testBit (j - s) = true) ∨ (s + 8 ≤ j ∧ bitAt b (j - (s + 8)) = true) := by
      unfold bitAt
      by_cases hj : j - s < 8
      · have e1 : (j - s) / 8 = 0 := by omega
        have e2 : (j - s) % 8 = j - s := by omega
        rw [e1, e2]
        simp only [List.getElem?_cons_zero]
        constructor
        · exact fun h => Or.inl h
        · rintro (h | ⟨h, _⟩)
          · exact h
          · omega
      · have e1 : (j - s) / 8 = (j - (s + 8)) / 8 + 1 := by omega
        have e2 : (j - s) % 8 = (j - (s + 8)) % 8 := by omega
        rw [e1, e2, List.getElem?_cons_succ]
        have : x.toNat.testBit (j - s) = false := by
          apply Nat.testBit_lt_two_pow
          calc x.toNat < 2 ^ 8 := hx
            _ ≤ 2 ^ (j - s) := Nat.pow_le_pow_right (by omega) (by omega)
        rw [this]
        constructor
        · rintro ⟨_, h⟩; exact Or.inr ⟨by omega, h⟩
        · rintro (⟨_, h⟩ | ⟨h1, h⟩)
          · cases h
          · exact ⟨by omega, h⟩
    rw [key]; exact or_assoc

/-- **C45** the bit vector of a set of indices, each below the number of bits, is read back as the same set; it panics if an index
does not fit. -/
theorem bitvector_round_trip (total : Nat) (rev : List Nat) (hs : rev.Pairwise (· < ·)) (hk : ∀ r ∈ rev, r ≤ total) :
    ∃ b, revealedToBitvector total rev = .ok b ∧ b.length = total / 8 + 1 ∧ bitvectorToRevealed b = rev := by
  obtain ⟨b, h1, h2, h3⟩ := setBits_spec rev (List.replicate (total / 8 + 1) 0) (fun r hr => by
    rw [List.length_replicate]; have := hk r hr; omega)
  refine ⟨b.reverse, by simp [revealedToBitvector, h1], by simp [h2], ?_⟩
  unfold bitvectorToRevealed
  rw [List.reverse_reverse]
  obtain ⟨h4, h5⟩ := bytesToRevealed_spec b 0 [] List.Pairwise.nil
  have hz : ∀ i, bitAt (List.replicate (total / 8 + 1) 0) i = false := by
    intro i
    unfold bitAt
    rw [List.getElem?_replicate]
    split_ifs <;> simp
  have hmem : ∀ j, j ∈ bytesToRevealed b 0 [] ↔ j ∈ rev := by
    intro j
    rw [h5, Nat.sub_zero, h3, hz]
    simp
  have hp : (bytesToRevealed b 0 []).Perm rev :=
    (List.perm_ext_iff_of_nodup (h4.imp (fun h => Nat.ne_of_lt h)) (hs.imp (fun h => Nat.ne_of_lt h))).2 hmem
  exact hp.eq_of_pairwise (fun a b _ _ h h' => absurd h (by omega)) h4 hs

/-- **C45** a proof request (as made by `new_proof_request`) survives serialization -/
theorem proof_request_round_trip (r : ProofRequest G1 G2) (hs : r.revealed.Pairwise (· < ·)) (hk : ∀ i ∈ r.revealed, i ≤ r.key.h.length)
    (hwf : WellFormed r.key) (hn : r.key.h.length < 2 ^ 32) (hd : c1.size ∣ c2.size) :
    ∃ b, r.toBytes c1 c2 = .ok b ∧ ProofRequest.fromBytes c1 c2 b = .ok r := by
  obtain ⟨bv, h1, h2, h3⟩ := bitvector_round_trip r.key.h.length r.revealed hs hk
  refine ⟨beU32 bv.length ++ bv ++ r.key.toBytes c1 c2, by simp [ProofRequest.toBytes, h1], ?_⟩
  unfold ProofRequest.fromBytes
  rw [if_neg (by simp only [List.length_append, beU32_length, pk_bytes_length]; omega)]
  have s1 : (readU32 (beU32 bv.length ++ bv ++ r.key.toBytes c1 c2) 0 : Res Error Nat) = .ok bv.length := by
    rw [List.append_assoc]; exact readU32_front _ _ (by rw [h2]; omega)
  have s2 : (slice (beU32 bv.length ++ bv ++ r.key.toBytes c1 c2) 4 (4 + bv.length) : Res Error Bytes) = .ok bv := by
    have := slice_append (ε := Error) (beU32 bv.length) bv (r.key.toBytes c1 c2)
    rwa [beU32_length] at this
  have s3 : (beU32 bv.length ++ bv ++ r.key.toBytes c1 c2).drop (4 + bv.length) = r.key.toBytes c1 c2 := by
    apply List.drop_left'
    rw [List.length_append, beU32_length]
  rw [s1]
  simp only [Res.ok_bind]
  rw [s2]
  simp only [Res.ok_bind]
  have p1 := pk_round_trip c1 c2 r.key hwf hn hd [] (by simp)
  rw [List.append_nil] at p1
  rw [s3, p1, h3]
  rfl

/-! ## Malformed input -/

theorem readU32_panic_iff {ε : Type} (d : Bytes) (off : Nat) : (readU32 d off : Res ε Nat) = .panic ↔ d.length < off + 4 := by
  unfold readU32 slice
  by_cases h : off ≤ off + 4 ∧ off + 4 ≤ d.length
  · rw [if_pos h]; simp; omega
  · rw [if_neg h]; simp; omega

theorem readU32_ne_err {ε : Type} (d : Bytes) (off : Nat) (e : ε) : (readU32 d off : Res ε Nat) ≠ .err e := by
  unfold readU32 slice
  split_ifs <;> simp

/-- **C77** parsing a public key panics exactly on fewer than four bytes (in a build with overflow checks) -/
theorem pk_parse_panics_iff (h4 : 4 < c1.size) (hd : c1.size ∣ c2.size) (data : Bytes) :
    PublicKey.fromBytes c1 c2 data = .panic ↔ data.length < 4 := by
  unfold PublicKey.fromBytes
  by_cases h : data.length < 4
  · simp [h]
  rw [if_neg h]
  simp only [h, iff_false]
  by_cases hm : (data.length - 4) % c1.size ≠ 0
  · simp [hm]
  rw [if_neg hm]
  cases hw : readElem c2 data with
  | none => simp
  | some x =>
    obtain ⟨w, rest⟩ := x
    simp only [Res.ofOption_some, Res.ok_bind]
    cases hh : readElem c1 rest with
    | none => simp
    | some y =>
      obtain ⟨h0, rest2⟩ := y
      simp only [Res.ofOption_some, Res.ok_bind]
      have l1 := readElem_length hw
      have l2 := readElem_length hh
      have hlen : ¬ rest2.length < 4 := by
        intro hlt
        obtain ⟨k, hk⟩ := hd
        obtain ⟨q, hq⟩ := Nat.dvd_of_mod_eq_zero (not_not.1 hm)
        have e1 : c1.size * q + 4 = rest2.length + c1.size + c1.size * k := by rw [← hq, ← hk]; omega
        have : q < k + 1 := by
          by_contra hc
          have : c1.size * (k + 1) ≤ c1.size * q := Nat.mul_le_mul_left _ (by omega)
          rw [Nat.mul_add, Nat.mul_one] at this
          omega
        have h7 : c1.size * q ≤ c1.size * k := Nat.mul_le_mul_left _ (by omega)
        omega
      cases hr : (readU32 rest2 0 : Res Error Nat) with
      | panic => exact absurd ((readU32_panic_iff rest2 0).1 hr) hlen
      | err e => simp
      | ok n =>
        simp only [Res.ok_bind]
        cases readMany c1 n (rest2.drop 4) with
        | none => simp
        | some z =>
          simp only [Res.ofOption_some, Res.ok_bind]
          rcases validate_cases (⟨h0, z.1, w⟩ : PublicKey G1 G2) with h | h <;> rw [h] <;> simp

/-- a public key that was parsed contains no neutral element -/
theorem pk_parse_wellformed (data : Bytes) (pk : PublicKey G1 G2) (h : PublicKey.fromBytes c1 c2 data = .ok pk) :
    WellFormed pk := by
  unfold PublicKey.fromBytes at h
  split_ifs at h
  cases hw : readElem c2 data with
  | none => rw [hw] at h; simp at h
  | some x =>
    rw [hw] at h
    simp only [Res.ofOption_some, Res.ok_bind] at h
    cases hh : readElem c1 x.2 with
    | none => rw [hh] at h; simp at h
    | some y =>
      rw [hh] at h
      simp only [Res.ofOption_some, Res.ok_bind] at h
      cases hr : (readU32 y.2 0 : Res Error Nat) with
      | panic => rw [hr] at h; simp at h
      | err e => rw [hr] at h; simp at h
      | ok n =>
        rw [hr] at h
        simp only [Res.ok_bind] at h
        cases hz : readMany c1 n (y.2.drop 4) with
        | none => rw [hz] at h; simp at h
        | some z =>
          rw [hz] at h
          simp only [Res.ofOption_some, Res.ok_bind] at h
          rcases validate_cases (⟨y.1, z.1, x.1⟩ : PublicKey G1 G2) with h' | h'
          · rw [h'] at h
            simp only [Res.ok_bind, Res.pure_eq, Res.ok.injEq] at h
            rw [← h]
            exact (validate_ok _).1 h'
          · rw [h'] at h; simp at h

theorem liftPoK_ne_panic {α : Type} {r : Res PoK.Error α} (h : r ≠ .panic) : liftPoK r ≠ .panic := by
  cases r <;> simp_all [liftPoK]

/-- **C45** a repeated index in the bytes of a presentation replaces the earlier value; the map stays in ascending order -/
theorem mapInsert_get {A : Type} (k : Nat) (v : A) : ∀ m : List (Nat × A), Sorted m →
    Sorted (mapInsert k v m) ∧ ∀ j, mapGet (mapInsert k v m) j = if k = j then some v else mapGet m j
  | [], _ => ⟨by simp [Sorted, mapInsert], fun j => by rw [mapInsert, mapGet_cons]⟩
  | (a, w) :: m, hs => by
    have hs' := List.pairwise_cons.1 hs
    obtain ⟨ih1, ih2⟩ := mapInsert_get k v m hs'.2
    rw [mapInsert]
    by_cases h1 : k < a
    · rw [if_pos h1]
      refine ⟨List.pairwise_cons.2 ⟨?_, hs⟩, fun j => by rw [mapGet_cons]⟩
      intro q hq
      rcases List.mem_cons.1 hq with rfl | hq
      · exact h1
      · exact Nat.lt_trans h1 (hs'.1 q hq)
    · rw [if_neg h1]
      by_cases h2 : k = a
      · subst h2
        rw [if_pos rfl]
        refine ⟨List.pairwise_cons.2 ⟨fun q hq => hs'.1 q hq, hs'.2⟩, fun j => ?_⟩
        rw [mapGet_cons, mapGet_cons]
        split_ifs <;> rfl
      · rw [if_neg h2]
        refine ⟨List.pairwise_cons.2 ⟨fun q hq => ?_, ih1⟩, fun j => ?_⟩
        · have hg := (mapGet_mem ih1 (i := q.1) (v := q.2)).2 hq
          rw [ih2] at hg
          split_ifs at hg with h3
          · show a < q.1
            omega
          · exact hs'.1 q ((mapGet_mem hs'.2).1 hg)
        · rw [mapGet_cons, ih2, mapGet_cons]
          split_ifs with h3 h4
          · omega
          · rfl
          · rfl
          · rfl

/-- **C77** a blind signature context that is too short is reported as such -/
theorem ctx_parse_short (data : Bytes) (h : data.length < 2 * c1.size + cF.size + 4) :
    (BlindCtx.fromBytes c1 cF data : Res Error (BlindCtx F G1)) =
      .err (.invalidNumberOfBytes (2 * c1.size + cF.size + 4) data.length) := by
  unfold BlindCtx.fromBytes
  rw [if_pos (by omega), Nat.mul_comm]

/-- **C77** parsing a signature or a blind signature context never panics -/
theorem sig_and_ctx_parse_no_panic (c1' : Codec G1) (data : Bytes) :
    (Signature.tryFrom c1 cF c1' data : Res Error (Signature F G1)) ≠ .panic ∧
    (BlindCtx.fromBytes c1 cF data : Res Error (BlindCtx F G1)) ≠ .panic := by
  constructor
  · unfold Signature.tryFrom
    dsimp only
    generalize (if data.length = c1.size + 2 * cF.size then c1 else c1') = c
    cases readElem c data with
    | none => simp
    | some x =>
      simp only [Res.ofOption_some, Res.ok_bind]
      cases readElem cF x.2 with
      | none => simp
      | some y =>
        simp only [Res.ofOption_some, Res.ok_bind]
        cases readElem cF y.2 with
        | none => simp
        | some z => simp
  · unfold BlindCtx.fromBytes
    split_ifs
    · simp
    · cases readElem c1 data with
      | none => simp
      | some x =>
        simp only [Res.ofOption_some, Res.ok_bind]
        cases readElem cF x.2 with
        | none => simp
        | some y =>
          simp only [Res.ofOption_some, Res.ok_bind]
          have := liftPoK_ne_panic (proof_parse_no_panic c1 cF (data.drop (c1.size + cF.size)))
          cases hl : liftPoK (PoK.Proof.fromBytes c1 cF (data.drop (c1.size + cF.size))) with
          | panic => exact absurd hl this
          | ok _ => simp
          | err _ => simp

/-- **C77** (negated) three well-formed points and nothing else make the proof parser panic -/
theorem sigproof_parse_panics (a b d : G1) :
    (SigProof.fromBytes c1 cF (c1.enc a ++ c1.enc b ++ c1.enc d) : Res Error (SigProof F G1)) = .panic := by
  unfold SigProof.fromBytes
  have hl : (c1.enc a ++ c1.enc b ++ c1.enc d).length = c1.size + c1.size + c1.size := by
    simp only [List.length_append, c1.enc_length]
  rw [if_neg (by omega)]
  have hp : (readU32 (c1.enc a ++ c1.enc b ++ c1.enc d) (c1.size + c1.size + c1.size) : Res Error Nat) = .panic := by
    rw [readU32_panic_iff, hl]; omega
  have e : c1.enc a ++ c1.enc b ++ c1.enc d = c1.enc a ++ (c1.enc b ++ (c1.enc d ++ [])) := by simp
  have r1 : readElem c1 (c1.enc a ++ c1.enc b ++ c1.enc d) = some (a, c1.enc b ++ (c1.enc d ++ [])) := by
    rw [e, readElem_enc]
  rw [r1]
  simp only [Res.ofOption_some, Res.ok_bind]
  rw [readElem_enc]
  simp only [Res.ofOption_some, Res.ok_bind]
  rw [readElem_enc]
  simp only [Res.ofOption_some, Res.ok_bind]
  rw [hp]
  rfl

/-- **C77** (negated) a length field that exceeds the data makes the parsers of the prover's answer and of the proof request panic -/
theorem length_field_panics (data : Bytes) (h : data.length < 4 + ofBe (data.take 4)) :
    (8 ≤ data.length → (SignatureProof.fromBytes c1 cF data : Res Error (SignatureProof F G1)) = .panic) ∧
    (8 + c1.size + c2.size ≤ data.length → (ProofRequest.fromBytes c1 c2 data : Res Error (ProofRequest G1 G2)) = .panic) := by
  have hr : 4 ≤ data.length → (readU32 data 0 : Res Error Nat) = .ok (ofBe (data.take 4)) := by
    intro h4
    unfold readU32 slice
    rw [if_pos ⟨by omega, by omega⟩]
    simp
  constructor
  · intro h8
    unfold SignatureProof.fromBytes
    rw [if_neg (by omega), hr (by omega)]
    simp only [Res.ok_bind]
    unfold slice
    rw [if_neg (by omega)]
    rfl
  · intro h8
    unfold ProofRequest.fromBytes
    rw [if_neg (by omega), hr (by omega)]
    simp only [Res.ok_bind]
    unfold slice
    rw [if_neg (by omega)]
    rfl

/-- **C77** (negated) a revealed message that is not a canonical scalar makes the parser panic -/
theorem noncanonical_message_panics (p : SigProof F G1) (hf : FitsP c1 cF p) (hl : (p.toBytes c1 cF).length < 2 ^ 32) (i : Nat)
    (bad : Bytes) (hb : bad.length = cF.size) (hbad : cF.dec bad = none) (hi : i < 2 ^ 32) :
    (SignatureProof.fromBytes c1 cF
      (beU32 (p.toBytes c1 cF).length ++ p.toBytes c1 cF ++ beU32 1 ++ beU32 i ++ bad) : Res Error (SignatureProof F G1)) =
      .panic := by
  unfold SignatureProof.fromBytes
  set pb := p.toBytes c1 cF with hpb
  rw [if_neg (by simp only [List.length_append, beU32_length]; omega)]
  have s1 : (readU32 (beU32 pb.length ++ pb ++ beU32 1 ++ beU32 i ++ bad) 0 : Res Error Nat) = .ok pb.length := by
    rw [List.append_assoc, List.append_assoc, List.append_assoc]; exact readU32_front _ _ hl
  have s2 : (slice (beU32 pb.length ++ pb ++ beU32 1 ++ beU32 i ++ bad) 4 (pb.length + 4) : Res Error Bytes) = .ok pb := by
    have := slice_append (ε := Error) (beU32 pb.length) pb (beU32 1 ++ beU32 i ++ bad)
    rw [beU32_length, Nat.add_comm 4] at this
    rw [← this]
    simp
  have hl4 : (beU32 pb.length ++ pb).length = pb.length + 4 := by rw [List.length_append, beU32_length, Nat.add_comm]
  have s3 : (readU32 (beU32 pb.length ++ pb ++ beU32 1 ++ beU32 i ++ bad) (pb.length + 4) : Res Error Nat) = .ok 1 := by
    rw [← hl4, List.append_assoc (beU32 pb.length ++ pb ++ beU32 1)]; exact readU32_append _ _ _ (by omega)
  have hl8 : (beU32 pb.length ++ pb ++ beU32 1).length = pb.length + 4 + 4 := by rw [List.length_append, hl4, beU32_length]
  have s4 : (readU32 (beU32 pb.length ++ pb ++ beU32 1 ++ beU32 i ++ bad) (pb.length + 4 + 4) : Res Error Nat) = .ok i := by
    rw [← hl8]; exact readU32_append _ _ _ hi
  have hl12 : (beU32 pb.length ++ pb ++ beU32 1 ++ beU32 i).length = pb.length + 4 + 4 + 4 := by
    rw [List.length_append, hl8, beU32_length]
  have s5 : (slice (beU32 pb.length ++ pb ++ beU32 1 ++ beU32 i ++ bad) (pb.length + 4 + 4 + 4)
      (pb.length + 4 + 4 + 4 + cF.size) : Res Error Bytes) = .ok bad := by
    have := slice_append (ε := Error) (beU32 pb.length ++ pb ++ beU32 1 ++ beU32 i) bad []
    rw [hl12, hb, List.append_nil] at this
    exact this
  rw [s1]
  simp only [Res.ok_bind]
  rw [s2]
  simp only [Res.ok_bind]
  have p1 := sigproof_round_trip c1 cF p hf []
  rw [List.append_nil, ← hpb] at p1
  rw [p1]
  simp only [Res.ok_bind]
  rw [s3]
  simp only [Res.ok_bind, readRevealed]
  rw [s4]
  simp only [Res.ok_bind]
  rw [s5]
  simp [hbad]

/-! ## Defaults -/

/-- **C81** The values that replace bytes that cannot be parsed are never accepted: the default key is invalid, the default signature
verifies for no key, the default proof and answer are refused by every verifier, and the default context by every issuer. -/
theorem defaults_rejected (P : Params F G1 G2 GT) :
    (PublicKey.default : PublicKey G1 G2).validate = .err .malformedPublicKey ∧
    (∀ msgs pk, (Signature.default : Signature F G1).verify P msgs pk ≠ .ok true) ∧
    (∀ pk rev c, (SigProof.default : SigProof F G1).verify P pk rev c ≠ .ok .success) ∧
    (∀ req nonce out, verifySignaturePok P req (SignatureProof.default : SignatureProof F G1) nonce ≠ .ok out) ∧
    (∀ rev pk nonce, (BlindCtx.default : BlindCtx F G1).verify P rev pk nonce ≠ .ok true) := by
  have h3 : ∀ pk rev c, (SigProof.default : SigProof F G1).verify P pk rev c ≠ .ok .success := by
    intro pk rev c
    unfold SigProof.verify
    rcases validate_cases pk with h | h <;> rw [h]
    · simp only [Res.ok_bind]
      split_ifs with h1 h2
      · simp
      · simp
      · exact absurd rfl h2
      · exact absurd rfl h2
    · simp
  refine ⟨by simp [PublicKey.validate, PublicKey.default], fun msgs pk => ?_, h3, fun req nonce out => ?_, fun rev pk nonce => ?_⟩
  · rw [Ne, verify_true_pairing]
    rintro ⟨-, -, ⟨h, -⟩, -⟩
    exact h rfl
  · unfold verifySignaturePok
    intro h
    simp only [] at h
    have := h3 req.key (SignatureProof.default : SignatureProof F G1).revealed (P.hashFr
      ((SignatureProof.default : SignatureProof F G1).proof.bytesForChallenge P req.revealed req.key ++ P.encF.enc nonce))
    cases hv : (SignatureProof.default : SignatureProof F G1).proof.verify P req.key
        (SignatureProof.default : SignatureProof F G1).revealed (P.hashFr
          ((SignatureProof.default : SignatureProof F G1).proof.bytesForChallenge P req.revealed req.key ++ P.encF.enc nonce)) with
    | ok st => cases st <;> rw [hv] at h <;> simp at h; exact this hv
    | err e => rw [hv] at h; simp at h
    | panic => rw [hv] at h; simp at h
  · unfold BlindCtx.verify
    simp [BlindCtx.default, proofDefault, Proof.challengeContribution, liftPoK]

/-- **C81** so bytes whose parsing fails give, through `From<Box<[u8]>>`, an object that is refused (or a panic) -/
theorem boxed_garbage_rejected (P : Params F G1 G2 GT) (c1' : Codec G1) (data : Bytes) :
    (∀ e sig msgs pk, Signature.tryFrom c1 cF c1' data = .err e →
      fromBoxed (Signature.tryFrom c1 cF c1') Signature.default data = .ok sig → sig.verify P msgs pk ≠ .ok true) ∧
    (∀ e sp req nonce out, SignatureProof.fromBytes c1 cF data = .err e →
      fromBoxed (SignatureProof.fromBytes c1 cF) SignatureProof.default data = .ok sp →
      verifySignaturePok P req sp nonce ≠ .ok out) ∧
    (∀ e ctx rev pk nonce, BlindCtx.fromBytes c1 cF data = .err e →
      fromBoxed (BlindCtx.fromBytes c1 cF) BlindCtx.default data = .ok ctx → ctx.verify P rev pk nonce ≠ .ok true) := by
  obtain ⟨-, h2, -, h4, h5⟩ := defaults_rejected (F := F) (G1 := G1) P
  refine ⟨fun e sig msgs pk he h => ?_, fun e sp req nonce out he h => ?_, fun e ctx rev pk nonce he h => ?_⟩
  · simp only [fromBoxed, he, Res.ok.injEq] at h
    rw [← h]; exact h2 msgs pk
  · simp only [fromBoxed, he, Res.ok.injEq] at h
    rw [← h]; exact h4 req nonce out
  · simp only [fromBoxed, he, Res.ok.injEq] at h
    rw [← h]; exact h5 rev pk nonce

end

/-! ## Concrete cases -/
namespace Toy
open Verif.Toy
local instance : Fact (Nat.Prime 101) := fact101

/-- a key round trip, with one ignored trailing byte (the elements of the toy group have one byte) -/
example : PublicKey.fromBytes codec101 codec101 ((⟨2, [3, 5], 7⟩ : PublicKey (ZMod 101) (ZMod 101)).toBytes codec101 codec101 ++ [0]) =
    .ok ⟨2, [3, 5], 7⟩ :=
  pk_round_trip codec101 codec101 _ ⟨by decide, by decide, by decide⟩ (by decide) (dvd_refl _) [0] (dvd_refl _)

example : ∃ b, (⟨[0, 2, 9], ⟨2, [3, 5, 1, 1, 1, 1, 1, 1, 1], 7⟩⟩ : ProofRequest (ZMod 101) (ZMod 101)).toBytes codec101 codec101 = .ok b ∧
    ProofRequest.fromBytes codec101 codec101 b = .ok ⟨[0, 2, 9], ⟨2, [3, 5, 1, 1, 1, 1, 1, 1, 1], 7⟩⟩ :=
  proof_request_round_trip codec101 codec101 _ (by decide) (by decide) ⟨by decide, by decide, by decide⟩ (by decide) (dvd_refl _)

example : revealedToBitvector 9 [0, 2, 9] = .ok [2, 5] := by decide +kernel

example : SignatureProof.fromBytes codec101 codec101
    ((⟨[(0, 4), (3, 9)], ⟨1, 2, 3, ⟨4, [5, 6]⟩, ⟨7, [8]⟩⟩⟩ : SignatureProof (ZMod 101) (ZMod 101)).toBytes codec101 codec101) =
    .ok ⟨[(0, 4), (3, 9)], ⟨1, 2, 3, ⟨4, [5, 6]⟩, ⟨7, [8]⟩⟩⟩ :=
  signature_proof_round_trip codec101 codec101 _ ⟨by decide, by decide, by decide +kernel⟩ (by decide +kernel)
    (by simp [Sorted]) (by decide) (by decide)

/-- the byte 200 is no element of the field with 101 elements -/
example := noncanonical_message_panics codec101 codec101 (⟨1, 2, 3, ⟨4, [5, 6]⟩, ⟨7, [8]⟩⟩ : SigProof (ZMod 101) (ZMod 101))
    ⟨by decide, by decide, by decide +kernel⟩ (by decide +kernel) 5 [200] rfl (by decide +kernel) (by decide)

example : (SignatureProof.fromBytes codec101 codec101 [0, 0, 1, 0, 0, 0, 0, 0] :
    Res Error (SignatureProof (ZMod 101) (ZMod 101))) = .panic :=
  (length_field_panics codec101 codec101 codec101 (G2 := ZMod 101) [0, 0, 1, 0, 0, 0, 0, 0] (by decide)).1 (by decide)

example : mapInsert 3 7 [(1, 5), (3, 6), (4, 8)] = [(1, 5), (3, 7), (4, 8)] := by decide
example := mapInsert_get 3 7 [(1, 5), (3, 6), (4, 8)] (by simp [Sorted])

end Toy
end Verif.BBS
