import Verif.Props.CS
/-!
# Verifiable encryption: labels (C103), proofs of encryption (C104 to C107)
-/
set_option linter.unusedSectionVars false
set_option linter.unusedSimpArgs false
set_option linter.unusedVariables false
namespace Verif.CS
open Verif.BN Verif.CL

variable {n : Nat} {pk : PubKey} {sk : PriKey} {gU : (ZMod (n * n))ˣ} (H : Bytes → Int)

/-! ## Labels -/

/-- **C103** Decrypting an honest ciphertext with another label: it gives the messages if `u ^ (2 * x3 * d)` is one modulo `n²`, `d` being the difference of
the two hash values, and otherwise fails at the check of `v`. -/
theorem decrypt_other_label {p q : Nat} {g' : Int} (hk : HonestKey p q g' pk sk) (r : Int) (ms : List Int)
    (hl : ms.length ≤ sk.x1.length) (label label' : Bytes) (c : Cipher) (hc : encrypt H pk r ms label = .ok c) :
    decrypt H label' c pk sk =
      if modExp c.u (2 * sk.x3 * (H (hashInput c.u c.e label') - H (hashInput c.u c.e label))) (pk.n * pk.n) = .ok 1
      then .ok (ms.map (fun m => m % pk.n)) else .err "u^2 != v^2" := by
  obtain ⟨gU, k⟩ := hk.ok
  have hN := k.hN
  have : NeZero ((p * q) * (p * q)) := neZero_of hN
  obtain ⟨v, h1, -, h2, h3, h4⟩ := encrypt_ok H k r ms hl label
  rw [hc] at h1
  simp only [Res.ok.injEq] at h1
  subst h1
  have hnn : pk.n * pk.n = (((p * q) * (p * q) : Nat) : Int) := by rw [k.n_eq]; push_cast; ring
  have hmod := (rep_val (gU ^ r)).modExp hN (2 * sk.x3 * (H (hashInput (val (gU ^ r)) (encE gU r ms sk.x1) label') -
      H (hashInput (val (gU ^ r)) (encE gU r ms sk.x1) label)))
  have hone : val (1 : (ZMod ((p * q) * (p * q)))ˣ) = 1 := by
    have := val_h (p * q) k.hn 0
    simpa using this
  have hiff : (val ((gU ^ r) ^ (2 * sk.x3 * (H (hashInput (val (gU ^ r)) (encE gU r ms sk.x1) label') -
      H (hashInput (val (gU ^ r)) (encE gU r ms sk.x1) label)))) = 1) ↔
      ((gU ^ r) ^ (2 * sk.x3 * (H (hashInput (val (gU ^ r)) (encE gU r ms sk.x1) label') -
      H (hashInput (val (gU ^ r)) (encE gU r ms sk.x1) label)))) = 1 := by
    constructor
    · intro h; rw [← hone] at h; exact val_injective h
    · intro h; rw [h, hone]
  have hvv : (v : ZMod ((p * q) * (p * q))) * v =
      (((gU ^ r) ^ (2 * (H (hashInput (val (gU ^ r)) (encE gU r ms sk.x1) label) * sk.x3 + sk.x2)) : (ZMod ((p * q) * (p * q)))ˣ) :
        ZMod ((p * q) * (p * q))) := by
    rw [sq_of_sign h4, ← Units.val_mul]
    congr 1
    rw [← zpow_mul, ← zpow_mul, ← zpow_add]
    congr 1
    ring
  simp only [hnn, hmod, Res.ok.injEq]
  revert hiff hvv
  generalize H (hashInput (val (gU ^ r)) (encE gU r ms sk.x1) label) = a
  generalize hb : H (hashInput (val (gU ^ r)) (encE gU r ms sk.x1) label') = b
  intro hiff hvv
  by_cases hd : val ((gU ^ r) ^ (2 * sk.x3 * (b - a))) = 1
  · rw [if_pos hd]
    have hd' := hiff.mp hd
    rw [decrypt_run H k label' _ (gU ^ r) (rep_val _) (by simp only [encE_length gU r ms sk.x1 hl]; exact hl) h2 h3, k.n_eq]
    · exact decryptLoop_ok k _ _ (rep_val _) _ _ _ _ (decr_encE gU r ms sk.x1 hl)
    · show (v : ZMod ((p * q) * (p * q))) * v = _
      rw [hvv]
      congr 1
      simp only [hb]
      rw [show 2 * (b * sk.x3 + sk.x2) = 2 * (a * sk.x3 + sk.x2) + 2 * sk.x3 * (b - a) by ring, zpow_add, hd', mul_one]
  · rw [if_neg hd]
    have hsq : pk.group.sqr v = .ok (val ((gU ^ r) ^ (2 * (a * sk.x3 + sk.x2)))) := by
      unfold Group.sqr
      rw [k.mod]
      exact rep_modulus (by push_cast; exact hvv)
    unfold decrypt
    simp only [hb]
    rw [if_neg (by rw [encE_length gU r ms sk.x1 hl]; omega), abs_of_small pk.group k.mod v h2 h3, Res.ok_bind, if_neg (by simp)]
    simp only [Group.exp]
    rw [k.mod, (rep_val (gU ^ r)).modExp hN, Res.ok_bind, hsq, Res.ok_bind, if_pos]
    intro he
    apply hd
    rw [hiff]
    have he' := val_injective he
    unfold lshift1 at he'
    rw [show 2 * sk.x3 * (b - a) = (b * sk.x3 + sk.x2) * 2 - 2 * (a * sk.x3 + sk.x2) by ring, zpow_sub, ← he', mul_inv_cancel]

theorem encE_append (gU : (ZMod (n * n))ˣ) (r : Int) : ∀ (ms ms' xs : List Int), (ms ++ ms').length ≤ xs.length →
    encE gU r (ms ++ ms') xs = encE gU r ms xs ++ encE gU r ms' (xs.drop ms.length)
  | [], ms', xs, _ => by cases xs <;> simp [encE]
  | _ :: _, _, [], h => by simp at h
  | m :: ms, ms', x :: xs, h => by
    simp only [List.cons_append, encE, List.length_cons, List.drop_succ_cons, encE_append gU r ms ms' xs (by simpa using h)]

/-- **C103, negation** The label is not bound: the last messages of a ciphertext can be cut off, and their bytes put in front of the label.  What remains decrypts,
under the longer label, to the first messages; for every hash function. -/
theorem decrypt_cut {p q : Nat} {g' : Int} (hk : HonestKey p q g' pk sk) (r : Int) (ms ms' : List Int)
    (hl : (ms ++ ms').length ≤ sk.x1.length) (label : Bytes) (c : Cipher) (hc : encrypt H pk r (ms ++ ms') label = .ok c) :
    decrypt H ((c.e.drop ms.length).flatMap toBytes ++ label) ⟨c.u, c.e.take ms.length, c.v⟩ pk sk = .ok (ms.map (fun m => m % pk.n)) := by
  obtain ⟨gU, k⟩ := hk.ok
  have hN := k.hN
  have : NeZero ((p * q) * (p * q)) := neZero_of hN
  obtain ⟨v, h1, -, h2, h3, h4⟩ := encrypt_ok H k r (ms ++ ms') hl label
  rw [hc] at h1
  simp only [Res.ok.injEq] at h1
  subst h1
  have hl1 : ms.length ≤ sk.x1.length := by rw [List.length_append] at hl; omega
  have hlen := encE_length gU r ms sk.x1 hl1
  have happ := encE_append gU r ms ms' sk.x1 hl
  have htake : (encE gU r (ms ++ ms') sk.x1).take ms.length = encE gU r ms sk.x1 := by
    rw [happ, List.take_append_of_le_length (by omega), List.take_of_length_le (by omega)]
  have hhash : hashInput (val (gU ^ r)) (encE gU r ms sk.x1) (((encE gU r (ms ++ ms') sk.x1).drop ms.length).flatMap toBytes ++ label) =
      hashInput (val (gU ^ r)) (encE gU r (ms ++ ms') sk.x1) label := by
    unfold hashInput
    conv_rhs => rw [← List.take_append_drop ms.length (encE gU r (ms ++ ms') sk.x1), htake]
    simp only [List.flatMap_append, List.append_assoc]
  simp only [htake]
  rw [decrypt_run H k _ _ (gU ^ r) (rep_val _) (by simp only [hlen]; exact hl1) h2 h3, k.n_eq]
  · exact decryptLoop_ok k _ _ (rep_val _) _ _ _ _ (decr_encE gU r ms sk.x1 hl1)
  · simp only [hhash]
    rw [sq_of_sign h4, ← Units.val_mul]
    congr 1
    rw [← zpow_mul, ← zpow_mul, ← zpow_add]
    congr 1
    ring

/-! ## Proofs of encryption -/

/-- the `e` that the verifier computes -/
def recE (gU : (ZMod (n * n))ˣ) (c r : Int) : List Int → List ((ZMod (n * n))ˣ) → List Int → List Int
  | s :: ss, e :: es, x :: xs => val (e ^ c * (gU ^ x) ^ r * hU n ^ (lshift1 s)) :: recE gU c r ss es xs
  | _, _, _ => []

theorem reconE_ok (k : KeyOk n pk sk gU) (c r : Int) : ∀ (ss es : List Int) (eUs : List ((ZMod (n * n))ˣ)) (xs : List Int),
    List.Forall₂ Rep es eUs → ss.length ≤ es.length → ss.length ≤ xs.length →
    reconE pk.group c r ss es (xs.map (fun x => val (gU ^ x))) = .ok (recE gU c r ss eUs xs)
  | [], [], [], xs, _, _, _ => by simp [reconE, recE]
  | [], e :: es, eU :: eUs, xs, _, _, _ => by simp [reconE, recE]
  | s :: ss, [], _, xs, _, h, _ => by simp at h
  | s :: ss, _ :: _, _ :: _, [], _, _, h => by simp at h
  | s :: ss, e :: es, eU :: eUs, x :: xs, h, h1, h2 => by
    have hN := k.hN
    have : NeZero (n * n) := neZero_of hN
    have hh : Rep pk.group.h (hU n) := by rw [k.h_eq]; exact rep_h n
    cases h with
    | cons he hes =>
      simp only [reconE, Group.exp, k.mod, he.modExp hN, Res.ok_bind, List.map_cons, List.head?_cons, Res.unwrap_some,
        (rep_val (gU ^ x)).modExp hN, hh.modExp hN, (rep_val (eU ^ c)).modMul (rep_val ((gU ^ x) ^ r)),
        (rep_val (eU ^ c * (gU ^ x) ^ r)).modMul (rep_val (hU n ^ lshift1 s)), List.tail_cons,
        reconE_ok k c r ss es eUs xs hes (by simpa using h1) (by simpa using h2), Res.pure_eq, recE]

/-- what the verifier reconstructs from a ciphertext of units -/
theorem reconstruct_eq (k : KeyOk n pk sk gU) (c : Cipher) (uU : (ZMod (n * n))ˣ) (eUs : List ((ZMod (n * n))ˣ)) (vU : (ZMod (n * n))ˣ)
    (hu : Rep c.u uU) (he : List.Forall₂ Rep c.e eUs) (hv : Rep c.v vU) (s : List Int) (hs : s.length ≤ c.e.length)
    (hs' : s.length ≤ sk.x1.length) (rHat ch : Int) (label : Bytes) :
    reconstruct H pk c s rHat ch label = .ok ⟨val (uU ^ (lshift1 ch) * gU ^ (lshift1 rHat)), recE gU (lshift1 ch) (lshift1 rHat) s eUs sk.x1,
      val (vU ^ (lshift1 ch) * (gU ^ (H (hashInput c.u c.e label) * sk.x3 + sk.x2)) ^ (lshift1 rHat))⟩ := by
  have hN := k.hN
  have : NeZero (n * n) := neZero_of hN
  have hg : Rep pk.group.g gU := by rw [k.g_eq]; exact rep_val gU
  have hy : gU ^ sk.x2 * (gU ^ sk.x3) ^ (H (hashInput c.u c.e label)) = gU ^ (H (hashInput c.u c.e label) * sk.x3 + sk.x2) := by
    rw [← zpow_mul, ← zpow_add]; congr 1; ring
  unfold reconstruct
  rw [if_neg (by rw [k.y1, List.length_map]; omega), k.y1, reconE_ok k _ _ s c.e eUs sk.x1 he hs hs']
  simp only [Group.exp, k.mod, k.y2, k.y3, hu.modExp hN, hg.modExp hN, hv.modExp hN, Res.ok_bind,
    (rep_val (uU ^ (lshift1 ch))).modMul (rep_val (gU ^ (lshift1 rHat))), (rep_val (gU ^ sk.x3)).modExp hN,
    (rep_val (gU ^ sk.x2)).modMul (rep_val ((gU ^ sk.x3) ^ (H (hashInput c.u c.e label)))), hy,
    (rep_val (gU ^ (H (hashInput c.u c.e label) * sk.x3 + sk.x2))).modExp hN,
    (rep_val (vU ^ (lshift1 ch))).modMul (rep_val ((gU ^ (H (hashInput c.u c.e label) * sk.x3 + sk.x2)) ^ (lshift1 rHat))), Res.pure_eq]

/-- the units of an honest ciphertext -/
def encU (gU : (ZMod (n * n))ˣ) (r : Int) : List Int → List Int → List ((ZMod (n * n))ˣ)
  | m :: ms, x :: xs => ((gU ^ x) ^ r * hU n ^ m) :: encU gU r ms xs
  | _, _ => []

theorem encE_rep [NeZero (n * n)] (gU : (ZMod (n * n))ˣ) (r : Int) : ∀ (ms xs : List Int), List.Forall₂ Rep (encE gU r ms xs) (encU gU r ms xs)
  | [], [] => .nil
  | [], _ :: _ => .nil
  | _ :: _, [] => .nil
  | m :: ms, x :: xs => .cons (rep_val _) (encE_rep gU r ms xs)

/-- the responses for the messages fit: `s = m̃ - c * m` modulo `n`, at every place -/
def Responses (n : Nat) (c : Int) : List Int → List Int → List Int → Prop
  | [], [], [] => True
  | m :: ms, b :: bs, s :: ss => s ≡ b - c * m [ZMOD n] ∧ Responses n c ms bs ss
  | _, _, _ => False

theorem Responses.length {n : Nat} {c : Int} : ∀ {ms bs ss : List Int}, Responses n c ms bs ss → ss.length = ms.length ∧ bs.length = ms.length
  | [], [], [], _ => ⟨rfl, rfl⟩
  | _ :: _, _ :: _, _ :: _, h => by
    have := Responses.length h.2
    simp only [List.length_cons]; omega
  | [], [], _ :: _, h => by simp [Responses] at h
  | [], _ :: _, _, h => by simp [Responses] at h
  | _ :: _, [], _, h => by simp [Responses] at h
  | _ :: _, _ :: _, [], h => by simp [Responses] at h

theorem recE_honest (gU : (ZMod (n * n))ˣ) (r rT c : Int) : ∀ (ms bs ss xs : List Int), Responses n c ms bs ss → ms.length ≤ xs.length →
    recE gU (lshift1 c) (lshift1 (rT - r * c)) ss (encU gU r ms xs) xs = encE gU (lshift1 rT) (bs.map lshift1) xs
  | [], [], [], xs, _, _ => by cases xs <;> simp [recE, encE, encU]
  | m :: ms, b :: bs, s :: ss, [], _, h => by simp at h
  | m :: ms, b :: bs, s :: ss, x :: xs, h, hl => by
    have hh : hU n ^ (lshift1 s) = hU n ^ (lshift1 b - lshift1 c * m) := by
      apply hU_congr
      have := h.1.mul_right 2
      unfold lshift1
      refine this.trans ?_
      rw [show (b - c * m) * 2 = b * 2 - c * 2 * m by ring]
    have hval : ((gU ^ x) ^ r * hU n ^ m) ^ (lshift1 c) * (gU ^ x) ^ (lshift1 (rT - r * c)) * hU n ^ (lshift1 s) =
        (gU ^ x) ^ (lshift1 rT) * hU n ^ (lshift1 b) := by
      rw [hh, mul_zpow, ← zpow_mul, ← zpow_mul, ← zpow_mul, ← zpow_mul, ← zpow_mul, zpow_sub]
      rw [show x * lshift1 rT = x * (r * lshift1 c) + x * lshift1 (rT - r * c) by unfold lshift1; ring, zpow_add,
        show m * lshift1 c = lshift1 c * m by ring]
      generalize gU ^ (x * (r * lshift1 c)) = A
      generalize gU ^ (x * lshift1 (rT - r * c)) = B
      generalize hU n ^ (lshift1 c * m) = C
      generalize hU n ^ (lshift1 b) = D
      rw [mul_assoc A C B, mul_comm C B, ← mul_assoc A B C, mul_assoc (A * B) C, mul_comm D, mul_inv_cancel_left]
    simp only [recE, encU, List.map_cons, encE, hval, recE_honest gU r rT c ms bs ss xs h.2 (by simpa using hl)]
  | [], [], _ :: _, _, h, _ => by simp [Responses] at h
  | [], _ :: _, _, _, h, _ => by simp [Responses] at h
  | _ :: _, [], _, _, h, _ => by simp [Responses] at h
  | _ :: _, _ :: _, [], _, h, _ => by simp [Responses] at h

theorem rep_of_cast {N : Nat} {a : Int} {w : (ZMod N)ˣ} (h0 : 0 ≤ a) (h : (a : ZMod N) = w ∨ (a : ZMod N) = -w) :
    ∃ w' : (ZMod N)ˣ, Rep a w' ∧ (w' = w ∨ w' = -w) := by
  rcases h with h | h
  · exact ⟨w, ⟨h0, h⟩, Or.inl rfl⟩
  · exact ⟨-w, ⟨h0, by rw [h]; rfl⟩, Or.inr rfl⟩

theorem even_zpow_sign {G : Type} [CommGroup G] [HasDistribNeg G] {w w' : G} (h : w' = w ∨ w' = -w) (c : Int) :
    w' ^ (lshift1 c) = w ^ (lshift1 c) := by
  unfold lshift1
  rw [mul_comm c 2, zpow_mul, zpow_mul]
  congr 1
  rcases h with rfl | rfl
  · rfl
  · rw [zpow_two, zpow_two, neg_mul_neg]

/-- **C104** For all messages, blindings, random values, and challenges for which `r * challenge` is less than `n²` (as it is for challenges up to `4 * n`), and responses
`m̃ - challenge * m` modulo `n` for the messages: the prover's two phases succeed and the verifier reconstructs the commitments. -/
theorem encryption_proof_complete {p q : Nat} {g' : Int} (hk : HonestKey p q g' pk sk) (r rT ch : Int) (ms bs ss : List Int)
    (hl : ms.length ≤ sk.x1.length) (hr : 0 ≤ r * ch) (hr' : r * ch < pk.n * pk.n) (label : Bytes) (hs : Responses (p * q) ch ms bs ss) :
    ∃ c t rHat, provePhase1 H pk r rT ms bs label = .ok (c, t) ∧ provePhase2 pk r rT ch = .ok rHat ∧ encrypt H pk r ms label = .ok c ∧
      reconstruct H pk c ss rHat ch label = .ok t := by
  obtain ⟨gU, k⟩ := hk.ok
  have hN := k.hN
  have : NeZero ((p * q) * (p * q)) := neZero_of hN
  have hg : Rep pk.group.g gU := by rw [k.g_eq]; exact rep_val gU
  obtain ⟨v, h1, h1', h2, h3, h4⟩ := encrypt_ok H k r ms hl label
  obtain ⟨hsl, hbl⟩ := hs.length
  obtain ⟨vU, hvr, hvs⟩ := rep_of_cast h2 h4
  obtain ⟨w0, ht, -⟩ := computeV_ok k (lshift1 rT) (H (hashInput (val (gU ^ r)) (encE gU r ms sk.x1) label))
  have hp2 : provePhase2 pk r rT ch = .ok (rT - r * ch) := by
    have hNp : (0 : Int) < (((p * q) * (p * q) : Nat) : Int) := by omega
    have hnn : pk.n * pk.n = (((p * q) * (p * q) : Nat) : Int) := by rw [k.n_eq]; push_cast; ring
    unfold provePhase2 modMul
    rw [k.mod, modulus_eq_emod _ _ hNp, Int.emod_eq_of_lt hr (by rw [← hnn]; exact hr')]
    rfl
  have ht' : tValues pk rT bs (H (hashInput (val (gU ^ r)) (encE gU r ms sk.x1) label)) =
      .ok ⟨val (gU ^ (lshift1 rT)), encE gU (lshift1 rT) (bs.map lshift1) sk.x1,
        val ((gU ^ (H (hashInput (val (gU ^ r)) (encE gU r ms sk.x1) label) * sk.x3 + sk.x2)) ^ (lshift1 rT))⟩ := by
    unfold tValues
    rw [k.y1, computeE_ok k _ _ sk.x1 (by rw [List.length_map]; omega), ht]
    simp only [Group.exp, k.mod, hg.modExp hN, Res.ok_bind, Res.pure_eq]
  refine ⟨_, ⟨val (gU ^ (lshift1 rT)), encE gU (lshift1 rT) (bs.map lshift1) sk.x1,
    val ((gU ^ (H (hashInput (val (gU ^ r)) (encE gU r ms sk.x1) label) * sk.x3 + sk.x2)) ^ (lshift1 rT))⟩, _, ?_, hp2, h1, ?_⟩
  · unfold provePhase1
    rw [if_neg (by omega), if_neg (by rw [k.y1, List.length_map]; omega), h1', Res.ok_bind, ht', Res.ok_bind]
    rfl
  · rw [reconstruct_eq H k _ (gU ^ r) (encU gU r ms sk.x1) vU (rep_val _) (encE_rep gU r ms sk.x1) hvr ss
      (by simp only [encE_length gU r ms sk.x1 hl]; omega) (by omega)]
    congr 2
    · congr 1
      rw [← zpow_mul, ← zpow_add]
      congr 1
      unfold lshift1; ring
    · exact recE_honest gU r rT ch ms bs ss sk.x1 hs hl
    · congr 1
      rw [even_zpow_sign hvs]
      rw [← zpow_mul, ← zpow_mul, ← zpow_mul, ← zpow_mul, ← zpow_add]
      congr 1
      unfold lshift1; ring

end Verif.CS
