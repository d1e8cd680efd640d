import Verif.Props.CLHelpers
import Std.Data.String.ToInt
import Verif.CL.Primary
import Verif.CL.Arith
import Verif.Props.CLRevocation
import Mathlib.FieldTheory.Finite.Basic
import Mathlib.Algebra.BigOperators.Group.List.Basic
import Mathlib.Algebra.BigOperators.Group.Finset.Basic
import Mathlib.Data.Nat.ChineseRemainder
import Mathlib.Tactic.Abel
/-!
# Properties of key generation and issuance of primary CL credentials (C17, C18, C19, C31, C54, C55)
-/
set_option linter.unusedSectionVars false

namespace Verif.CL

open Verif BN

/-! ## Specification vocabulary -/

/-- The integers of a public key represent units `S, Z, C = Rctxt, R k` modulo `n`; `R k` is only constrained for the
attributes the key has. -/
structure KeyUnits (pk : PrimaryPubKey) (n : Nat) (S Z C : (ZMod n)ˣ) (R : String → (ZMod n)ˣ) : Prop where
  hn : 1 < n
  n_eq : pk.n = n
  s : Rep pk.s S
  z : Rep pk.z Z
  c : Rep pk.rctxt C
  r : ∀ k x, pk.r.lookup k = some x → Rep x (R k)

/-- every element of the key is non-negative and invertible modulo `n > 1`: what `KeyUnits` needs -/
structure ValidKey (pk : PrimaryPubKey) : Prop where
  hn : 1 < pk.n
  s : 0 ≤ pk.s ∧ Int.gcd pk.s pk.n = 1
  z : 0 ≤ pk.z ∧ Int.gcd pk.z pk.n = 1
  c : 0 ≤ pk.rctxt ∧ Int.gcd pk.rctxt pk.n = 1
  r : ∀ k x, pk.r.lookup k = some x → 0 ≤ x ∧ Int.gcd x pk.n = 1

/-- a valid key can be read as units -/
theorem ValidKey.units {pk : PrimaryPubKey} (h : ValidKey pk) :
    ∃ S Z C R, KeyUnits pk pk.n.toNat S Z C R := by
  have hn : ((pk.n.toNat : Nat) : Int) = pk.n := Int.toNat_of_nonneg (by have := h.hn; omega)
  obtain ⟨S, hS⟩ := exists_rep (n := pk.n.toNat) h.s.1 (by rw [hn]; exact h.s.2)
  obtain ⟨Z, hZ⟩ := exists_rep (n := pk.n.toNat) h.z.1 (by rw [hn]; exact h.z.2)
  obtain ⟨C, hC⟩ := exists_rep (n := pk.n.toNat) h.c.1 (by rw [hn]; exact h.c.2)
  have hR : ∀ k, ∃ u : (ZMod pk.n.toNat)ˣ, ∀ x, pk.r.lookup k = some x → Rep x u := by
    intro k
    cases hl : pk.r.lookup k with
    | none => exact ⟨1, by intro x hx; cases hx⟩
    | some x =>
      obtain ⟨u, hu⟩ := exists_rep (n := pk.n.toNat) (h.r k x hl).1 (by rw [hn]; exact (h.r k x hl).2)
      refine ⟨u, ?_⟩
      intro y hy
      cases hy
      exact hu
  choose R hR using hR
  exact ⟨S, Z, C, R, by have := h.hn; omega, hn.symm, hS, hZ, hC, fun k x hx => hR k x hx⟩

/-! ## Lemmas on folds and maps -/

theorem mapM_ok {α β : Type} (f : α → Res String β) (g : α → β) (l : List α) (h : ∀ x ∈ l, f x = .ok (g x)) :
    l.mapM f = .ok (l.map g) := by
  induction l with
  | nil => rfl
  | cons a l ih =>
    rw [List.mapM_cons, h a (by simp), Res.ok_bind, ih (fun x hx => h x (by simp [hx]))]
    rfl

theorem mapM_ok_inv {α β : Type} (f : α → Res String β) : ∀ (l : List α) (bs : List β), l.mapM f = .ok bs →
    List.Forall₂ (fun a b => f a = .ok b) l bs
  | [], bs, h => by
    rw [List.mapM_nil] at h
    cases h
    exact .nil
  | a :: l, bs, h => by
    rw [List.mapM_cons, Res.bind_eq_ok] at h
    obtain ⟨b, hb, h⟩ := h
    rw [Res.bind_eq_ok] at h
    obtain ⟨bs', hbs, h⟩ := h
    cases h
    exact .cons hb (mapM_ok_inv f l bs' hbs)

theorem foldlM_units {α : Type} {n : Nat} (step : Int → α → Res String Int) (g : α → (ZMod n)ˣ) (l : List α)
    (h : ∀ (u : (ZMod n)ˣ), ∀ x ∈ l, step (val u) x = .ok (val (u * g x))) (u : (ZMod n)ˣ) :
    l.foldlM step (val u) = .ok (val (u * (l.map g).prod)) := by
  induction l generalizing u with
  | nil => simp
  | cons a l ih =>
    rw [List.foldlM_cons, h u a (by simp), Res.ok_bind, ih (fun u x hx => h u x (by simp [hx])), List.map_cons,
      List.prod_cons, mul_assoc]

theorem foldl_units {α : Type} {n : Nat} (step : Res String Int → α → Res String Int) (g : α → (ZMod n)ˣ) (l : List α)
    (h : ∀ (u : (ZMod n)ˣ), ∀ x ∈ l, step (.ok (val u)) x = .ok (val (u * g x))) (u : (ZMod n)ˣ) :
    l.foldl step (.ok (val u)) = .ok (val (u * (l.map g).prod)) := by
  induction l generalizing u with
  | nil => simp
  | cons a l ih =>
    rw [List.foldl_cons, h u a (by simp), ih (fun u x hx => h u x (by simp [hx])), List.map_cons,
      List.prod_cons, mul_assoc]

theorem lookup_of_mem {V : Type} : ∀ {m : Map V} {k : String} {v : V}, (m.map (·.1)).Nodup → (k, v) ∈ m →
    m.lookup k = some v
  | [], _, _, _, h => by simp at h
  | (k', v') :: m, k, v, hnd, h => by
    rw [List.map_cons, List.nodup_cons] at hnd
    rw [List.lookup_cons]
    rcases List.mem_cons.1 h with h1 | h1
    · cases h1; simp
    · have : k ≠ k' := by
        rintro rfl
        exact hnd.1 (List.mem_map.2 ⟨(k, v), h1, rfl⟩)
      rw [beq_eq_false_iff_ne.2 this]
      exact lookup_of_mem hnd.2 h1

theorem mem_of_lookup {V : Type} : ∀ {m : Map V} {k : String} {v : V}, m.lookup k = some v → (k, v) ∈ m
  | [], _, _, h => by simp at h
  | (k', v') :: m, k, v, h => by
    rw [List.lookup_cons] at h
    by_cases hk : k = k'
    · subst hk
      simp at h
      simp [h]
    · rw [beq_eq_false_iff_ne.2 hk] at h
      exact List.mem_cons_of_mem _ (mem_of_lookup h)

theorem hasKey_iff {V : Type} {m : Map V} {k : String} : m.hasKey k = true ↔ ∃ v, m.lookup k = some v := by
  unfold Map.hasKey
  induction m with
  | nil => simp
  | cons a m ih =>
    obtain ⟨k', v'⟩ := a
    rw [List.any_cons, List.lookup_cons]
    by_cases hk : k = k'
    · subst hk; simp
    · rw [beq_eq_false_iff_ne.2 hk, beq_eq_false_iff_ne.2 (Ne.symm hk), Bool.false_or]
      exact ih

theorem hasKey_iff_mem {V : Type} {m : Map V} {k : String} : m.hasKey k = true ↔ k ∈ m.map (·.1) := by
  unfold Map.hasKey
  simp

section
variable {n : Nat}

theorem pedersen_units (hn : 1 < n) {a b : Int} {u w : (ZMod n)ˣ} (ha : Rep a u) (hb : Rep b w) (x y : Int) :
    pedersen a x b y n = .ok (val (u ^ x * w ^ y)) := by
  have := neZero_of hn
  unfold pedersen
  rw [ha.modExp hn, Res.ok_bind, hb.modExp hn, Res.ok_bind]
  exact (rep_val _).modMul (rep_val _)

end

theorem map_lookup_key {V : Type} (keys : List String) (f : String → V) {k : String} (hk : k ∈ keys) :
    List.lookup k (keys.map (fun k => (k, f k))) = some (f k) := by
  induction keys with
  | nil => simp at hk
  | cons a l ih =>
    rw [List.map_cons, List.lookup_cons]
    by_cases h : k = a
    · subst h; simp
    · rw [beq_eq_false_iff_ne.2 h]
      exact ih (by simpa [h] using hk)

/-! ## Key generation -/

/-- raising a square modulo a product of two distinct odd primes to the power `(P-1)/2 * (Q-1)/2` gives one -/
theorem square_order (P Q : Nat) (hP : P.Prime) (hQ : Q.Prime) (hP2 : P ≠ 2) (hQ2 : Q ≠ 2) (hPQ : P ≠ Q)
    (r : (ZMod (P * Q))ˣ) : (r * r) ^ ((P / 2) * (Q / 2)) = 1 := by
  have : Fact P.Prime := ⟨hP⟩
  have : Fact Q.Prime := ⟨hQ⟩
  have hcop : Nat.Coprime P Q := (Nat.coprime_primes hP hQ).2 hPQ
  have hPo : 2 * (P / 2) = P - 1 := by
    rcases hP.eq_two_or_odd with h | h
    · exact absurd h hP2
    · omega
  have hQo : 2 * (Q / 2) = Q - 1 := by
    rcases hQ.eq_two_or_odd with h | h
    · exact absurd h hQ2
    · omega
  have htot : r ^ (2 * ((P / 2) * (Q / 2))) = 1 := by
    apply Units.ext
    have hinj := (ZMod.chineseRemainder hcop).injective
    apply hinj
    rw [Units.val_one, map_one]
    apply Prod.ext
    · set f : ZMod (P * Q) →+* ZMod P := (RingHom.fst _ _).comp (ZMod.chineseRemainder hcop : ZMod (P * Q) →+* ZMod P × ZMod Q) with hf
      change f ((r ^ _ : (ZMod (P * Q))ˣ) : ZMod (P * Q)) = 1
      have h1 : f ((r ^ (2 * ((P / 2) * (Q / 2))) : (ZMod (P * Q))ˣ) : ZMod (P * Q)) =
          ((Units.map f.toMonoidHom r ^ (2 * ((P / 2) * (Q / 2))) : (ZMod P)ˣ) : ZMod P) := by simp
      rw [h1, ← mul_assoc, hPo, pow_mul, ZMod.units_pow_card_sub_one_eq_one, one_pow, Units.val_one]
    · set f : ZMod (P * Q) →+* ZMod Q := (RingHom.snd _ _).comp (ZMod.chineseRemainder hcop : ZMod (P * Q) →+* ZMod P × ZMod Q) with hf
      change f ((r ^ _ : (ZMod (P * Q))ˣ) : ZMod (P * Q)) = 1
      have h1 : f ((r ^ (2 * ((P / 2) * (Q / 2))) : (ZMod (P * Q))ˣ) : ZMod (P * Q)) =
          ((Units.map f.toMonoidHom r ^ (2 * ((P / 2) * (Q / 2))) : (ZMod Q)ˣ) : ZMod Q) := by simp
      rw [h1, mul_comm (P / 2), ← mul_assoc, hQo, pow_mul, ZMod.units_pow_card_sub_one_eq_one, one_pow, Units.val_one]
  rw [← pow_two, ← pow_mul]
  exact htot

/-- What key generation returns for any two distinct odd primes, any random number coprime to `n`, any exponents and any
attribute names: all elements of the key are powers of `S`, and the private key multiplies to a multiple of the order
of `S`. -/
theorem new_primary_keys_spec (keys : List String) (P Q : Nat) (hP : P.Prime) (hQ : Q.Prime) (hP2 : P ≠ 2) (hQ2 : Q ≠ 2)
    (hPQ : P ≠ Q) (qr : Int) (hqr0 : 0 ≤ qr) (hqr : Int.gcd qr ((P * Q : Nat) : Int) = 1) (xz : Int) (xr : String → Int)
    (xctx : Int) :
    ∃ pk sk md, newPrimaryKeys false keys P Q qr xz xr xctx = .ok (pk, sk, md) ∧
      ∃ S : (ZMod (P * Q))ˣ, KeyUnits pk (P * Q) S (S ^ xz) (S ^ xctx) (fun k => S ^ xr k) ∧
        sk.p * sk.q = ((P / 2 * (Q / 2) : Nat) : Int) ∧ S ^ (P / 2 * (Q / 2)) = 1 ∧
        pk.r.map (·.1) = keys ∧ (∀ k ∈ keys, pk.r.lookup k = some (val (S ^ xr k))) ∧
        md.xz = xz ∧ (∀ k ∈ keys, md.xr.lookup k = some (xr k)) ∧ (S : ZMod (P * Q)) = ((qr * qr : Int) : ZMod (P * Q)) := by
  have hn : 1 < P * Q := by nlinarith [hP.two_le, hQ.two_le]
  have hn0 := neZero_of hn
  obtain ⟨w, hw⟩ := exists_rep (n := P * Q) hqr0 hqr
  have hs : modulus (qr * qr) ((P * Q : Nat) : Int) = .ok (val (w * w)) :=
    rep_modulus (by rw [Int.cast_mul, hw.2, Units.val_mul])
  have hs' : modulus (qr * qr) ((P : Int) * (Q : Int)) = .ok (val (w * w)) := by
    rw [← hs]; push_cast; rfl
  have hexp : ∀ k : Int, modExp (val (w * w)) k ((P : Int) * (Q : Int)) = .ok (val ((w * w) ^ k)) := by
    intro k
    have := (rep_val (w * w)).modExp hn k
    rw [← this]; push_cast; rfl
  unfold newPrimaryKeys
  rw [if_neg (by simp)]
  simp only []
  rw [hs', Res.ok_bind, mapM_ok _ (fun k => (k, val ((w * w) ^ xr k))) _ (by intro x _; rw [hexp]; rfl), Res.ok_bind,
    hexp, Res.ok_bind, hexp, Res.ok_bind]
  refine ⟨_, _, _, rfl, w * w, ⟨hn, by push_cast; rfl, rep_val _, rep_val _, rep_val _, ?_⟩, ?_,
    square_order P Q hP hQ hP2 hQ2 hPQ w, by simp [Function.comp_def], ?_, rfl, ?_, by rw [Int.cast_mul, hw.2, Units.val_mul]⟩
  · intro k x hx
    have hm := mem_of_lookup hx
    rw [List.mem_map] at hm
    obtain ⟨k', _, hk'⟩ := hm
    cases hk'
    exact rep_val _
  · unfold rshift1
    push_cast
    rfl
  · intro k hk
    exact map_lookup_key keys (fun k => val ((w * w) ^ xr k)) hk
  · intro k hk
    exact map_lookup_key keys xr hk

/-- an empty schema is refused -/
theorem new_primary_keys_empty (keys : List String) (pSafe qSafe qr xz : Int) (xr : String → Int) (xctx : Int) :
    newPrimaryKeys true keys pSafe qSafe qr xz xr xctx = .err "List of attributes is empty" := rfl

/-! ## C17: key correctness proof -/

/-- C17: the proof made by the issuer for a generated key is accepted, whatever the hash function and randomness. -/
theorem key_proof_complete (sha : Bytes → Bytes) (pk : PrimaryPubKey) (md : PubKeyMetadata) {n : Nat}
    {S C : (ZMod n)ˣ} {xz : Int} {xr : String → Int}
    (hk : KeyUnits pk n S (S ^ xz) C (fun k => S ^ xr k)) (hnd : (pk.r.map (·.1)).Nodup)
    (hxz : md.xz = xz) (hxr : ∀ k ∈ pk.r.map (·.1), md.xr.lookup k = some (xr k)) (xzT : Int) (xrT : String → Int) :
    ∃ pr, newKeyProof sha pk md xzT xrT = .ok pr ∧ checkKeyProof sha pk pr = .ok () := by
  have hn := hk.hn
  have hn0 := neZero_of hn
  unfold newKeyProof
  rw [hk.n_eq, hk.s.modExp hn, Res.ok_bind, mapM_ok (fun e : String × Int => modExp pk.s (xrT e.1) n) (fun e => val (S ^ xrT e.1)) pk.r (fun e _ => hk.s.modExp hn _), Res.ok_bind]
  simp only []
  set c := getHashAsInt sha [keyProofBytes pk.z (pk.r.map (·.2)) (val (S ^ xzT)) (pk.r.map (fun e => val (S ^ xrT e.1)))] with hc
  rw [mapM_ok (fun e : String × Int => do let x ← Res.unwrap (md.xr.lookup e.1); pure (e.1, c * x + xrT e.1))
    (fun e => (e.1, c * xr e.1 + xrT e.1)) _ (by
    intro e he
    rw [hxr e.1 (List.mem_map.2 ⟨e, he, rfl⟩)]
    rfl), Res.ok_bind]
  refine ⟨_, rfl, ?_⟩
  unfold checkKeyProof
  have hnames : checkKeyNames pk { c := c, xzCap := c * md.xz + xzT, xrCap := pk.r.map (fun e => (e.1, c * xr e.1 + xrT e.1)) } = .ok () := by
    unfold checkKeyNames
    rw [if_neg, if_neg]
    · rw [List.any_eq_true]
      rintro ⟨x, hx, h⟩
      rw [List.mem_map] at hx
      obtain ⟨e, he, rfl⟩ := hx
      have : Map.hasKey pk.r e.1 = true := by
        rw [hasKey_iff_mem]; exact List.mem_map.2 ⟨e, he, rfl⟩
      simp [this] at h
    · rw [List.any_eq_true]
      rintro ⟨e, he, h⟩
      have : (pk.r.map (fun e => (e.1, c * xr e.1 + xrT e.1))).any (fun x => x.1 == e.1) = true := by
        rw [List.any_eq_true]
        exact ⟨_, List.mem_map.2 ⟨e, he, rfl⟩, by simp⟩
      simp [this] at h
  rw [hnames, Res.ok_bind]
  have hcaps : keyProofCaps pk { c := c, xzCap := c * md.xz + xzT, xrCap := pk.r.map (fun e => (e.1, c * xr e.1 + xrT e.1)) } =
      .ok (val (S ^ xzT), pk.r.map (fun e => (e.2, val (S ^ xrT e.1)))) := by
    unfold keyProofCaps
    rw [hk.n_eq, hk.z.inverse hn, Res.ok_bind]
    simp only []
    rw [pedersen_units hn (rep_val _) hk.s, Res.ok_bind]
    rw [List.mapM_map, mapM_ok _ (fun e => (e.2, val (S ^ xrT e.1))) _ (by
      intro e he
      simp only [Function.comp]
      have hl := lookup_of_mem hnd he
      rw [hl, Res.unwrap_some, Res.ok_bind, (hk.r _ _ hl).inverse hn, Res.ok_bind, pedersen_units hn (rep_val _) hk.s, Res.ok_bind]
      simp only [Res.pure_eq]
      congr 3
      rw [← zpow_neg, ← zpow_mul, ← zpow_add]
      congr 1
      ring), Res.ok_bind]
    simp only [Res.pure_eq]
    congr 3
    rw [hxz, ← zpow_neg, ← zpow_mul, ← zpow_add]
    congr 1
    ring
  rw [hcaps, Res.ok_bind]
  simp only [List.map_map, Function.comp_def]
  rw [if_pos hc]
  rfl

theorem checkKeyNames_ok {pk : PrimaryPubKey} {pr : KeyProof} (h : checkKeyNames pk pr = .ok ()) :
    (∀ k ∈ pk.r.map (·.1), k ≠ "master_secret" → k ∈ pr.xrCap.map (·.1)) ∧
      ∀ k ∈ pr.xrCap.map (·.1), k ∈ pk.r.map (·.1) := by
  unfold checkKeyNames at h
  split_ifs at h with h1 h2
  constructor
  · intro k hk hne
    by_contra hno
    apply h1
    rw [List.mem_map] at hk
    obtain ⟨e, he, rfl⟩ := hk
    rw [List.any_eq_true]
    refine ⟨e, he, ?_⟩
    rw [Bool.and_eq_true, Bool.not_eq_true', bne_iff_ne]
    refine ⟨?_, hne⟩
    rw [Bool.eq_false_iff]
    intro h3
    rw [List.any_eq_true] at h3
    obtain ⟨x, hx, h4⟩ := h3
    apply hno
    rw [List.mem_map]
    exact ⟨x, hx, by simpa using h4⟩
  · intro k hk
    rw [List.mem_map] at hk
    obtain ⟨x, hx, rfl⟩ := hk
    by_contra hno
    apply h2
    rw [List.any_eq_true]
    refine ⟨x, hx, ?_⟩
    rw [Bool.not_eq_true', Bool.eq_false_iff]
    intro h3
    exact hno (hasKey_iff_mem.1 h3)

/-- the recomputed commitments of a key correctness proof, as units -/
theorem keyProofCaps_units {pk : PrimaryPubKey} {n : Nat} {S Z C : (ZMod n)ˣ} {R : String → (ZMod n)ˣ}
    (hk : KeyUnits pk n S Z C R) (pr : KeyProof) (hnames : ∀ k ∈ pr.xrCap.map (·.1), k ∈ pk.r.map (·.1)) :
    keyProofCaps pk pr = .ok (val (Z⁻¹ ^ pr.c * S ^ pr.xzCap),
      pr.xrCap.map (fun x => ((pk.r.lookup x.1).getD 0, val ((R x.1)⁻¹ ^ pr.c * S ^ x.2)))) := by
  have hn := hk.hn
  have hn0 := neZero_of hn
  unfold keyProofCaps
  rw [hk.n_eq, hk.z.inverse hn, Res.ok_bind, pedersen_units hn (rep_val _) hk.s, Res.ok_bind]
  rw [mapM_ok _ (fun x => ((pk.r.lookup x.1).getD 0, val ((R x.1)⁻¹ ^ pr.c * S ^ x.2))) pr.xrCap (by
    intro x hx
    obtain ⟨v, hv⟩ := hasKey_iff.1 (hasKey_iff_mem.2 (hnames x.1 (List.mem_map.2 ⟨x, hx, rfl⟩)))
    rw [hv, Res.unwrap_some, Res.ok_bind, (hk.r _ _ hv).inverse hn, Res.ok_bind, pedersen_units hn (rep_val _) hk.s, Res.ok_bind]
    rfl), Res.ok_bind]
  rfl

/-- C17 (soundness): an accepted proof covers every attribute of the key except possibly `master_secret`, and two
proofs with the same commitments and different challenges prove that `Z` and every covered `R k`, raised to the difference
of the challenges, are known powers of `S`. -/
theorem key_proof_sound {sha : Bytes → Bytes} {pk : PrimaryPubKey} {n : Nat} {S Z C : (ZMod n)ˣ} {R : String → (ZMod n)ˣ}
    (hk : KeyUnits pk n S Z C R) (pr : KeyProof) (h : checkKeyProof sha pk pr = .ok ()) :
    (∀ k ∈ pk.r.map (·.1), k ≠ "master_secret" → k ∈ pr.xrCap.map (·.1)) ∧
    ∀ pr' : KeyProof, pr'.xrCap.map (·.1) = pr.xrCap.map (·.1) → keyProofCaps pk pr' = keyProofCaps pk pr →
      Z ^ (pr.c - pr'.c) = S ^ (pr.xzCap - pr'.xzCap) ∧
      ∀ (i : Nat) (k : String) (x x' : Int), pr.xrCap[i]? = some (k, x) → pr'.xrCap[i]? = some (k, x') →
        R k ^ (pr.c - pr'.c) = S ^ (x - x') := by
  have hn0 := neZero_of hk.hn
  unfold checkKeyProof at h
  rw [Res.bind_eq_ok] at h
  obtain ⟨⟨⟩, h1, _⟩ := h
  have hnames := checkKeyNames_ok h1
  refine ⟨hnames.1, ?_⟩
  intro pr' hn' heq
  rw [keyProofCaps_units hk pr hnames.2, keyProofCaps_units hk pr' (by rw [hn']; exact hnames.2)] at heq
  injection heq with heq
  obtain ⟨hz, hr⟩ := Prod.ext_iff.1 heq
  have key : ∀ (Y : (ZMod n)ˣ) (x x' : Int), val (Y⁻¹ ^ pr'.c * S ^ x') = val (Y⁻¹ ^ pr.c * S ^ x) →
      Y ^ (pr.c - pr'.c) = S ^ (x - x') := by
    intro Y x x' hval
    have := val_injective hval
    rw [zpow_sub, zpow_sub]
    rw [inv_zpow, inv_zpow] at this
    have h2 : Y ^ pr.c * S ^ x' = Y ^ pr'.c * S ^ x := by
      calc Y ^ pr.c * S ^ x' = Y ^ pr.c * Y ^ pr'.c * ((Y ^ pr'.c)⁻¹ * S ^ x') := by
            rw [mul_assoc, mul_inv_cancel_left]
        _ = Y ^ pr.c * Y ^ pr'.c * ((Y ^ pr.c)⁻¹ * S ^ x) := by rw [this]
        _ = Y ^ pr'.c * S ^ x := by rw [mul_comm (Y ^ pr.c), mul_assoc, mul_inv_cancel_left]
    rw [← div_eq_mul_inv, ← div_eq_mul_inv, div_eq_div_iff_mul_eq_mul, mul_comm (S ^ x)]
    exact h2
  refine ⟨key _ _ _ hz, ?_⟩
  intro i k x x' hx hx'
  have h3 := congrArg (fun l => l[i]?) hr
  simp only [List.getElem?_map, hx, hx', Option.map_some, Option.some.injEq, Prod.mk.injEq] at h3
  exact key _ _ _ h3.2

theorem checkKeyProof_congr {sha : Bytes → Bytes} {pk pk' : PrimaryPubKey} {pr : KeyProof}
    (hn : pk'.n = pk.n) (hs : pk'.s = pk.s) (hz : pk'.z = pk.z)
    (hr : ∀ x ∈ pr.xrCap, pk'.r.lookup x.1 = pk.r.lookup x.1) (hnames : checkKeyNames pk' pr = .ok ())
    (h : checkKeyProof sha pk pr = .ok ()) : checkKeyProof sha pk' pr = .ok () := by
  have hcaps : keyProofCaps pk' pr = keyProofCaps pk pr := by
    unfold keyProofCaps
    rw [hn, hs, hz]
    have : ∀ (l : List (String × Int)), (∀ x ∈ l, pk'.r.lookup x.1 = pk.r.lookup x.1) →
        l.mapM (fun x => do
          let rv ← Res.unwrap (pk'.r.lookup x.1)
          let ri ← inverse rv pk.n
          let v ← pedersen ri pr.c pk.s x.2 pk.n
          pure (rv, v)) =
        l.mapM (fun x => (do
          let rv ← Res.unwrap (pk.r.lookup x.1)
          let ri ← inverse rv pk.n
          let v ← pedersen ri pr.c pk.s x.2 pk.n
          pure (rv, v) : Res String (Int × Int))) := by
      intro l hl
      induction l with
      | nil => rfl
      | cons a l ih =>
        rw [List.mapM_cons, List.mapM_cons, hl a (by simp), ih (fun x hx => hl x (by simp [hx]))]
    rw [this pr.xrCap hr]
  unfold checkKeyProof at h ⊢
  rw [Res.bind_eq_ok] at h
  obtain ⟨⟨⟩, _, h2⟩ := h
  rw [hnames, Res.ok_bind, hcaps, hz]
  exact h2

/-- C55: the exemption for `master_secret` means the proof says nothing about that generator: an issuer can choose any
number `y` for it and still produce an accepted proof. -/
theorem master_secret_generator_unproved (sha : Bytes → Bytes) (pk : PrimaryPubKey) (md : PubKeyMetadata) {n : Nat}
    {S C : (ZMod n)ˣ} {xz : Int} {xr : String → Int}
    (hk : KeyUnits pk n S (S ^ xz) C (fun k => S ^ xr k)) (hnd : (pk.r.map (·.1)).Nodup) (hms : "master_secret" ∉ pk.r.map (·.1))
    (hxz : md.xz = xz) (hxr : ∀ k ∈ pk.r.map (·.1), md.xr.lookup k = some (xr k)) (y : Int) :
    ∃ pr, checkKeyProof sha { pk with r := ("master_secret", y) :: pk.r } pr = .ok () := by
  obtain ⟨pr, hpr, h⟩ := key_proof_complete sha pk md hk hnd hxz hxr 0 (fun _ => 0)
  refine ⟨pr, checkKeyProof_congr (pk := pk) rfl rfl rfl ?_ ?_ h⟩
  · intro x hx
    unfold checkKeyProof at h
    rw [Res.bind_eq_ok] at h
    obtain ⟨⟨⟩, h1, _⟩ := h
    have hm := (checkKeyNames_ok h1).2 x.1 (List.mem_map.2 ⟨x, hx, rfl⟩)
    rw [List.lookup_cons]
    have : x.1 ≠ "master_secret" := by
      intro heq
      rw [heq] at hm
      exact hms hm
    rw [beq_eq_false_iff_ne.2 this]
  · unfold checkKeyProof at h
    rw [Res.bind_eq_ok] at h
    obtain ⟨⟨⟩, h1, _⟩ := h
    unfold checkKeyNames at h1 ⊢
    split_ifs at h1 with h2 h3
    rw [if_neg, if_neg]
    · intro h4
      apply h3
      rw [List.any_eq_true] at h4 ⊢
      obtain ⟨x, hx, h5⟩ := h4
      refine ⟨x, hx, ?_⟩
      rw [Bool.not_eq_true', Bool.eq_false_iff] at h5 ⊢
      intro h6
      apply h5
      rw [hasKey_iff_mem] at h6 ⊢
      simp only [List.map_cons, List.mem_cons]
      exact Or.inr h6
    · rw [List.any_cons]
      simpa using h2

/-! ## C18: the holder's proof about the blinded secrets -/

section
variable {G1 : Type}

/-- unit form of the product over the hidden attributes -/
def hiddenProd {n : Nat} (R : String → (ZMod n)ˣ) (m : String → Int) (names : List String) : (ZMod n)ˣ :=
  (names.map (fun k => R k ^ m k)).prod

/-- numerical value of an attribute in a map, 0 if absent -/
def attrValue (vals : Map CredentialValue) (k : String) : Int := ((vals.lookup k).map CredentialValue.value).getD 0

theorem attrValue_of_mem {vals : Map CredentialValue} (hnd : (vals.map (·.1)).Nodup) {e : String × CredentialValue}
    (he : e ∈ vals) : attrValue vals e.1 = e.2.value := by
  unfold attrValue
  rw [lookup_of_mem hnd he]
  rfl

/-- blinding factor of a committed attribute -/
def blindingOf : CredentialValue → Int
  | .commitment _ b => b
  | _ => 0

@[simp] theorem blindingOf_commitment (v b : Int) : blindingOf (.commitment v b) = b := rfl

/-- the commitments the holder publishes -/
def committedList {n : Nat} (S Z : (ZMod n)ˣ) (vals : Map CredentialValue) : Map Int :=
  (vals.filter (fun e => e.2.isCommitment)).map (fun e => (e.1, val (S ^ blindingOf e.2 * Z ^ e.2.value)))

theorem mem_hiddenNames {vals : Map CredentialValue} {k : String} (h : k ∈ hiddenNames vals) :
    ∃ v, (k, CredentialValue.hidden v) ∈ vals := by
  unfold hiddenNames at h
  rw [List.mem_map] at h
  obtain ⟨⟨k', cv⟩, he, rfl⟩ := h
  rw [List.mem_filter] at he
  cases cv with
  | hidden v => exact ⟨v, he.1⟩
  | known v => simp at he
  | commitment v b => simp at he

theorem blindedFactors_units {pk : PrimaryPubKey} {n : Nat} {S Z C : (ZMod n)ˣ} {R : String → (ZMod n)ˣ}
    (hk : KeyUnits pk n S Z C R) (vals : Map CredentialValue) (hnd : (vals.map (·.1)).Nodup)
    (hin : ∀ e ∈ vals, e.2.isKnown = false → pk.r.hasKey e.1 = true) (vPrime : Int) :
    blindedFactors pk vals vPrime = .ok
      { u := val (S ^ vPrime * hiddenProd R (attrValue vals) (hiddenNames vals)), vPrime := vPrime,
        hidden := hiddenNames vals, committed := committedList S Z vals } := by
  have hn := hk.hn
  have hn0 := neZero_of hn
  unfold blindedFactors
  simp only []
  rw [hk.n_eq, hk.s.modExp hn, foldl_units _ (fun k => R k ^ attrValue vals k) _ (by
    intro u k hkm
    obtain ⟨v, hv⟩ := mem_hiddenNames hkm
    obtain ⟨x, hx⟩ := hasKey_iff.1 (hin _ hv rfl)
    have hval := attrValue_of_mem hnd hv
    simp only [] at hval hx
    rw [hx, Res.ofOption_some, Res.ok_bind, lookup_of_mem hnd hv, Res.unwrap_some, Res.ok_bind, Res.ok_bind,
      (hk.r _ _ hx).modExp hn, Res.ok_bind, hval]
    exact (rep_val _).modMul (rep_val _)), Res.ok_bind]
  rw [mapM_ok _ (fun e => (e.1, val (S ^ blindingOf e.2 * Z ^ e.2.value))) _ (by
    rintro ⟨k, cv⟩ he
    rw [List.mem_filter] at he
    cases cv with
    | commitment v b =>
      simp only []
      rw [pedersen_units hn hk.s hk.z, Res.ok_bind]
      rfl
    | known v => simp at he
    | hidden v => simp at he), Res.ok_bind]
  rfl

/-- bytes hashed for the committed attributes -/
def committedBytes {n : Nat} (S Z : (ZMod n)ˣ) (mT rT : String → Int) (l : List (String × CredentialValue)) : Bytes :=
  (l.map (fun e => toBytes (val (Z ^ mT e.1 * S ^ rT e.1)) ++ toBytes (val (S ^ blindingOf e.2 * Z ^ e.2.value)))).flatten

theorem committedList_lookup {n : Nat} {S Z : (ZMod n)ˣ} {vals : Map CredentialValue} (hnd : (vals.map (·.1)).Nodup)
    {e : String × CredentialValue} (he : e ∈ vals) (hc : e.2.isCommitment = true) :
    (committedList S Z vals).lookup e.1 = some (val (S ^ blindingOf e.2 * Z ^ e.2.value)) := by
  apply lookup_of_mem
  · unfold committedList
    rw [List.map_map]
    have : ((fun x : String × Int => x.1) ∘ fun e : String × CredentialValue => (e.1, val (S ^ blindingOf e.2 * Z ^ e.2.value))) =
        (fun e => e.1) := rfl
    rw [this]
    exact hnd.sublist (List.Sublist.map _ List.filter_sublist)
  · unfold committedList
    rw [List.mem_map]
    exact ⟨e, List.mem_filter.2 ⟨he, hc⟩, rfl⟩

theorem blindedProof_fold {pk : PrimaryPubKey} {n : Nat} {S Z C : (ZMod n)ˣ} {R : String → (ZMod n)ˣ}
    (hk : KeyUnits pk n S Z C R) (vals : Map CredentialValue) (hnd : (vals.map (·.1)).Nodup) (b : BlindedFactors)
    (hb : b.committed = committedList S Z vals) (mT rT : String → Int) :
    ∀ (l : List (String × CredentialValue)) (u : (ZMod n)ˣ) (bs : Bytes), (∀ e ∈ l, e ∈ vals) →
      (∀ e ∈ l, pk.r.hasKey e.1 = true) →
      l.foldlM (blindedProofStep pk b mT rT) (val u, bs) =
        .ok (val (u * ((l.filter (fun e => e.2.isHidden)).map (fun e => R e.1 ^ mT e.1)).prod),
          bs ++ committedBytes S Z mT rT (l.filter (fun e => e.2.isCommitment)))
  | [], u, bs, _, _ => by simp [committedBytes]
  | (k, cv) :: l, u, bs, hmem, hkey => by
    have hn := hk.hn
    have hn0 := neZero_of hn
    obtain ⟨x, hx⟩ := hasKey_iff.1 (hkey _ (List.mem_cons_self))
    simp only [] at hx
    rw [List.foldlM_cons]
    have ih := fun u bs => blindedProof_fold hk vals hnd b hb mT rT l u bs (fun e he => hmem e (List.mem_cons_of_mem _ he))
      (fun e he => hkey e (List.mem_cons_of_mem _ he))
    cases cv with
    | known v =>
      have hstep : blindedProofStep pk b mT rT (val u, bs) (k, .known v) = .ok (val u, bs) := by
        unfold blindedProofStep
        simp only []
        rw [hx]
        rfl
      rw [hstep, Res.ok_bind, ih u bs]
      simp
    | hidden v =>
      have hstep : blindedProofStep pk b mT rT (val u, bs) (k, .hidden v) = .ok (val (u * R k ^ mT k), bs) := by
        unfold blindedProofStep
        simp only []
        rw [hx, Res.ofOption_some, Res.ok_bind, hk.n_eq, (hk.r _ _ hx).modExp hn, Res.ok_bind, (rep_val _).modMul (rep_val _)]
        rfl
      rw [hstep, Res.ok_bind, ih]
      simp [List.filter_cons, mul_assoc]
    | commitment v bl =>
      have hstep : blindedProofStep pk b mT rT (val u, bs) (k, .commitment v bl) =
          .ok (val u, bs ++ toBytes (val (Z ^ mT k * S ^ rT k)) ++ toBytes (val (S ^ bl * Z ^ v))) := by
        unfold blindedProofStep
        simp only []
        rw [hx, Res.ofOption_some, Res.ok_bind, hk.n_eq, pedersen_units hn hk.z hk.s, Res.ok_bind, hb,
          committedList_lookup hnd (hmem _ List.mem_cons_self) rfl, Res.ofOption_some, Res.ok_bind]
        rfl
      rw [hstep, Res.ok_bind, ih]
      simp [List.filter_cons, committedBytes]

theorem hiddenProd_filter {n : Nat} (R : String → (ZMod n)ˣ) (m : String → Int) (vals : Map CredentialValue) :
    (((vals.filter (fun e => e.2.isHidden || e.2.isCommitment)).filter (fun e => e.2.isHidden)).map (fun e => R e.1 ^ m e.1)).prod =
      hiddenProd R m (hiddenNames vals) := by
  unfold hiddenProd hiddenNames
  rw [List.map_map, List.filter_filter]
  congr 2
  apply List.filter_congr
  rintro ⟨k, cv⟩ _
  cases cv <;> rfl

theorem committed_filter (vals : Map CredentialValue) :
    (vals.filter (fun e => e.2.isHidden || e.2.isCommitment)).filter (fun e => e.2.isCommitment) =
      vals.filter (fun e => e.2.isCommitment) := by
  rw [List.filter_filter]
  apply List.filter_congr
  rintro ⟨k, cv⟩ _
  cases cv <;> rfl

theorem hiddenProd_add {n : Nat} (R : String → (ZMod n)ˣ) (m m' : String → Int) (c : Int) (l : List String) :
    hiddenProd R (fun k => m' k + c * m k) l = hiddenProd R m l ^ c * hiddenProd R m' l := by
  unfold hiddenProd
  induction l with
  | nil => simp
  | cons a l ih =>
    simp only [List.map_cons, List.prod_cons]
    rw [ih, mul_zpow, zpow_add, mul_comm c, zpow_mul]
    simp only [mul_left_comm, mul_assoc]

/-- C18 and the value the holder sends: for every valid key, every attribute map whose secret attributes are in the key and
all randomness, blinding succeeds, the blinded value is `S^v' * prod R_k^{m_k}` over the hidden attributes, and the
issuer accepts the proof (for the same nonce), whatever the hash function. -/
theorem blinded_proof_complete {F G2 : Type} [Field F] [AddCommGroup G1] [Module F G1]
    (sha : Bytes → Bytes) (pk : CredPubKey G1 G2) (kp : KeyProof) {n : Nat} {S Z C : (ZMod n)ˣ} {R : String → (ZMod n)ˣ}
    (hk : KeyUnits pk.pKey n S Z C R) (hkp : checkKeyProof sha pk.pKey kp = .ok ())
    (vals : Map CredentialValue) (hnd : (vals.map (·.1)).Nodup)
    (hin : ∀ e ∈ vals, e.2.isKnown = false → pk.pKey.r.hasKey e.1 = true) (nonce vPrime vT : Int) (mT rT : String → Int)
    (vrPrime : F) :
    ∃ b bf bp, blindCredentialSecrets sha pk kp vals nonce vPrime vT mT rT vrPrime = .ok (b, bf, bp) ∧
      b.u = val (S ^ vPrime * hiddenProd R (attrValue vals) (hiddenNames vals)) ∧ b.hidden = hiddenNames vals ∧
      b.ur = pk.rKey.map (fun rk => vrPrime • rk.h2) ∧
      bf.vPrime = vPrime ∧ bf.vrPrime = pk.rKey.map (fun _ => vrPrime) ∧
      checkBlindedProof sha b bp nonce pk.pKey = .ok () := by
  have hn := hk.hn
  have hn0 := neZero_of hn
  set U := S ^ vPrime * hiddenProd R (attrValue vals) (hiddenNames vals) with hU
  set secret := vals.filter (fun e => e.2.isHidden || e.2.isCommitment) with hsecret
  have hsec_mem : ∀ e ∈ secret, e ∈ vals := fun e he => (List.mem_filter.1 he).1
  have hsec_key : ∀ e ∈ secret, pk.pKey.r.hasKey e.1 = true := by
    intro e he
    have h2 := List.mem_filter.1 he
    apply hin e h2.1
    rcases e with ⟨k, cv⟩
    cases cv <;> simp_all
  have hfac := blindedFactors_units hk vals hnd hin vPrime
  rw [← hU] at hfac
  unfold blindCredentialSecrets
  rw [hkp, Res.ok_bind, hfac, Res.ok_bind]
  unfold newBlindedProof
  simp only []
  rw [← hsecret, hk.n_eq, hk.s.modExp hn, Res.ok_bind, blindedProof_fold hk vals hnd _ rfl mT rT secret _ _ hsec_mem hsec_key, Res.ok_bind]
  simp only [List.nil_append]
  rw [hsecret, hiddenProd_filter, committed_filter, ← hsecret]
  set c := getHashAsInt sha [committedBytes S Z mT rT (vals.filter (fun e => e.2.isCommitment)) ++ toBytes (val U) ++
    toBytes (val (S ^ vT * hiddenProd R mT (hiddenNames vals))) ++ toBytes nonce] with hc
  refine ⟨_, _, _, rfl, rfl, rfl, rfl, rfl, rfl, ?_⟩
  have hsnd : (secret.map (·.1)).Nodup := hnd.sublist (List.Sublist.map _ List.filter_sublist)
  have hmcap : ∀ e ∈ secret, (secret.map (fun e => (e.1, mT e.1 + c * e.2.value))).lookup e.1 = some (mT e.1 + c * e.2.value) := by
    intro e he
    apply lookup_of_mem
    · rw [List.map_map]; exact hsnd
    · exact List.mem_map.2 ⟨e, he, rfl⟩
  unfold checkBlindedProof
  have hcap : blindedCap pk.pKey
      { u := val U, ur := pk.rKey.map (fun rk => Rev.blindedRevocationSecret rk vrPrime), hidden := hiddenNames vals, committed := committedList S Z vals }
      { c := c, vDashCap := c * vPrime + vT, mCaps := secret.map (fun e => (e.1, mT e.1 + c * e.2.value)),
        rCaps := secret.filterMap (rCapOf rT c) } = .ok (val (S ^ vT * hiddenProd R mT (hiddenNames vals))) := by
    unfold blindedCap
    simp only []
    rw [hk.n_eq, (rep_val U).inverse hn, Res.ok_bind, (rep_val _).modExp hn, Res.ok_bind, hk.s.modExp hn, Res.ok_bind,
      (rep_val _).modMul (rep_val _), foldl_units _ (fun k => R k ^ (mT k + c * attrValue vals k)) _ (by
        intro u k hkm
        obtain ⟨v, hv⟩ := mem_hiddenNames hkm
        obtain ⟨x, hx⟩ := hasKey_iff.1 (hin _ hv rfl)
        have hval := attrValue_of_mem hnd hv
        simp only [] at hval hx
        have hs : (k, CredentialValue.hidden v) ∈ secret := List.mem_filter.2 ⟨hv, rfl⟩
        have hl := hmcap _ hs
        simp only [] at hl ⊢
        rw [hx, Res.ofOption_some, Res.ok_bind, hl, Res.unwrap_some, Res.ok_bind, Res.ok_bind,
          (hk.r _ _ hx).modExp hn, Res.ok_bind, hval]
        exact (rep_val _).modMul (rep_val _))]
    have := hiddenProd_add R (attrValue vals) mT c (hiddenNames vals)
    unfold hiddenProd at this hU ⊢
    rw [this, hU]
    congr 2
    rw [zpow_add, mul_comm c, zpow_mul, mul_inv, mul_zpow, inv_zpow, inv_zpow]
    have ab : ∀ a b c d : (ZMod n)ˣ, a⁻¹ * b⁻¹ * (a * c) * (b * d) = c * d := by
      intro a b c d
      have : a⁻¹ * b⁻¹ * (a * c) * (b * d) = (a * a⁻¹) * (b * b⁻¹) * (c * d) := by
        simp only [mul_comm, mul_left_comm, mul_assoc]
      rw [this, mul_inv_cancel, mul_inv_cancel, one_mul, one_mul]
    exact ab _ _ _ _
  rw [hcap, Res.ok_bind]
  have hcom : (committedList S Z vals).mapM (fun e => (do
      let x ← committedCap pk.pKey ⟨c, c * vPrime + vT, secret.map (fun e => (e.1, mT e.1 + c * e.2.value)), secret.filterMap (rCapOf rT c)⟩ e
      pure (toBytes x ++ toBytes e.2) : Res String Bytes)) =
      .ok ((vals.filter (fun e => e.2.isCommitment)).map (fun e => toBytes (val (Z ^ mT e.1 * S ^ rT e.1)) ++ toBytes (val (S ^ blindingOf e.2 * Z ^ e.2.value)))) := by
    unfold committedList
    rw [List.mapM_map]
    apply mapM_ok
    intro e he
    rw [List.mem_filter] at he
    obtain ⟨k, cv⟩ := e
    cases cv with
    | known v => simp at he
    | hidden v => simp at he
    | commitment v bl =>
      have hs : (k, CredentialValue.commitment v bl) ∈ secret := List.mem_filter.2 ⟨he.1, rfl⟩
      have hl := hmcap _ hs
      have hr : (secret.filterMap (rCapOf rT c)).lookup k = some (rT k + c * bl) := by
        apply lookup_of_mem
        · have : (secret.filterMap (rCapOf rT c)).map (·.1) = (secret.filter (fun e => e.2.isCommitment)).map (·.1) := by
            clear * -
            induction secret with
            | nil => rfl
            | cons a l ih =>
              obtain ⟨k, cv⟩ := a
              cases cv <;> simp [List.filterMap_cons, List.filter_cons, rCapOf] <;> simpa [rCapOf] using ih
          rw [this]
          exact hsnd.sublist (List.Sublist.map _ List.filter_sublist)
        · rw [List.mem_filterMap]
          exact ⟨_, hs, rfl⟩
      simp only [Function.comp, committedCap]
      simp only [CredentialValue.value_commitment] at hl ⊢
      rw [hl, Res.unwrap_some, Res.ok_bind, hk.n_eq, (rep_val _).inverse hn, Res.ok_bind, (rep_val _).modExp hn, Res.ok_bind,
        hr, Res.unwrap_some, Res.ok_bind, pedersen_units hn hk.z hk.s, Res.ok_bind, (rep_val _).modMul (rep_val _), Res.ok_bind]
      simp only [Res.pure_eq, blindingOf_commitment]
      congr 4
      rw [zpow_add, zpow_add, mul_comm c, mul_comm c, zpow_mul, zpow_mul, mul_inv, mul_zpow, inv_zpow, inv_zpow]
      have ab : ∀ a b c d : (ZMod n)ˣ, a⁻¹ * b⁻¹ * (c * b * (d * a)) = c * d := by
        intro a b c d
        have : a⁻¹ * b⁻¹ * (c * b * (d * a)) = (a * a⁻¹) * (b * b⁻¹) * (c * d) := by
          simp only [mul_comm, mul_left_comm, mul_assoc]
        rw [this, mul_inv_cancel, mul_inv_cancel, one_mul, one_mul]
      exact ab _ _ _ _
  simp only [] at hcom ⊢
  rw [hcom, Res.ok_bind]
  exact if_pos hc

end

/-! ## C19: the signature -/

/-- the signed attributes of a map: known and hidden ones, not committed ones -/
def signedAttrs (vals : Map CredentialValue) : List (String × CredentialValue) :=
  vals.filter (fun e => e.2.isKnown || e.2.isHidden)

/-- product of `R_k ^ m_k` over a list of attributes -/
def attrProd {n : Nat} (R : String → (ZMod n)ˣ) (l : List (String × CredentialValue)) : (ZMod n)ˣ :=
  (l.map (fun e => R e.1 ^ e.2.value)).prod

/-- The CL equation `Z = A^e * S^v * Rctxt^m2 * prod R_k^{m_k}` modulo `n`, over the known and hidden attributes. -/
def CLEquation {n : Nat} (S Z C : (ZMod n)ˣ) (R : String → (ZMod n)ˣ) (A : (ZMod n)ˣ) (e v m2 : Int)
    (vals : Map CredentialValue) : Prop :=
  Z = A ^ e * S ^ v * C ^ m2 * attrProd R (signedAttrs vals)

theorem val_ne_zero {n : Nat} (hn : 1 < n) (u : (ZMod n)ˣ) : val u ≠ 0 := by
  intro h
  have := neZero_of hn
  have h2 := cast_val u
  rw [h, Int.cast_zero] at h2
  have : Nontrivial (ZMod n) := ZMod.nontrivial_iff.2 (by omega)
  exact u.ne_zero h2.symm

section
variable {F G1 G2 GT : Type} [Field F] [AddCommGroup G1] [Module F G1] [AddCommGroup G2] [Module F G2]
  [AddCommGroup GT] [Module F GT]

theorem signPrimary_units {pk : PrimaryPubKey} {n : Nat} {S Z C : (ZMod n)ˣ} {R : String → (ZMod n)ˣ}
    (hk : KeyUnits pk n S Z C R) (sk : PrimaryPrivKey) (N : Nat) (hN : sk.p * sk.q = N) (ctx : Int)
    (vals : Map CredentialValue) (hin : ∀ e ∈ vals, e.2.isKnown = true → pk.r.hasKey e.1 = true) (v : Int) (b : Blinded G1)
    (U : (ZMod n)ˣ) (hU : b.u = val U) (e d : Int) (hd : inverse e N = .ok d) :
    let Q := Z / (S ^ v * U * C ^ ctx * attrProd R (vals.filter (fun e => e.2.isKnown)))
    signPrimary pk sk ctx vals v b e = .ok (val (Q ^ d), val Q) := by
  intro Q
  have hn := hk.hn
  have hn0 := neZero_of hn
  unfold signPrimary
  rw [hk.n_eq, hk.s.modExp hn, Res.ok_bind, if_pos (by rw [hU]; exact val_ne_zero hn U), hU, (rep_val _).modMul (rep_val _),
    Res.ok_bind]
  simp only []
  rw [hk.c.modExp hn, Res.ok_bind, (rep_val _).modMul (rep_val _), Res.ok_bind]
  rw [foldlM_units _ (fun e => R e.1 ^ e.2.value) _ (by
    intro u x hx
    have hx' := List.mem_filter.1 hx
    obtain ⟨y, hy⟩ := hasKey_iff.1 (hin x hx'.1 hx'.2)
    rw [hy, Res.ofOption_some, Res.ok_bind, (hk.r _ _ hy).modExp hn, Res.ok_bind, (rep_val _).modMul (rep_val _), mul_comm])]
  rw [Res.ok_bind, hk.z.modDiv hn (rep_val _), Res.ok_bind]
  rw [hN, hd, Res.ok_bind, (rep_val _).modExp hn, Res.ok_bind]
  rfl

theorem zpow_modEq {n : Nat} {Q : (ZMod n)ˣ} {N : Nat} (hQ : Q ^ N = 1) {a b : Int} (h : a ≡ b [ZMOD N]) : Q ^ a = Q ^ b := by
  obtain ⟨k, hk⟩ := h.dvd
  have : b = a + N * k := by omega
  rw [this, zpow_add, zpow_mul, zpow_natCast, hQ, one_zpow, mul_one]

theorem recomputeQ_units {pk : PrimaryPubKey} {n : Nat} {S Z C : (ZMod n)ˣ} {R : String → (ZMod n)ˣ}
    (hk : KeyUnits pk n S Z C R) (sig : PrimarySig) (vals : Map CredentialValue)
    (hin : ∀ e ∈ signedAttrs vals, pk.r.hasKey e.1 = true) :
    recomputeQ pk sig vals = .ok (val (Z / (S ^ sig.v * C ^ sig.m2 * attrProd R (signedAttrs vals)))) := by
  have hn := hk.hn
  have hn0 := neZero_of hn
  unfold recomputeQ
  rw [if_neg (by
    rw [List.any_eq_true]
    rintro ⟨e, he, h⟩
    rw [Bool.and_eq_true, Bool.not_eq_true'] at h
    have := hin e (List.mem_filter.2 ⟨he, h.1⟩)
    rw [this] at h
    exact absurd h.2 (by simp))]
  have hfil : vals.filter (fun e => (e.2.isKnown || e.2.isHidden) && Map.hasKey pk.r e.1) = signedAttrs vals := by
    unfold signedAttrs
    apply List.filter_congr
    intro e he
    cases h : (e.2.isKnown || e.2.isHidden) with
    | false => rfl
    | true => rw [Bool.true_and]; exact hin e (List.mem_filter.2 ⟨he, h⟩)
  rw [hfil, hk.n_eq, pedersen_units hn hk.s hk.c, foldl_units _ (fun e => R e.1 ^ e.2.value) _ (by
    intro u x hx
    obtain ⟨y, hy⟩ := hasKey_iff.1 (hin x hx)
    rw [Res.ok_bind, hy, Res.unwrap_some, Res.ok_bind, (hk.r _ _ hy).modExp hn, Res.ok_bind]
    exact (rep_val _).modMul (rep_val _)), Res.ok_bind, hk.z.modDiv hn (rep_val _)]
  rfl

/-- General form of the issuer's signature followed by the holder's check: if the blinded value is `S^v' * H` and the
attributes the holder ends up with multiply to `H` times the attributes the issuer knows, the holder's check accepts and
the credential satisfies the CL equation for the holder's attributes.  `ctx` is any credential context. -/
theorem primary_sign_then_check (sha : Bytes → Bytes) (isPrime : Int → Bool)
    (pk : PrimaryPubKey) {n : Nat} {S Z C : (ZMod n)ˣ} {R : String → (ZMod n)ˣ} (hk : KeyUnits pk n S Z C R)
    (sk : PrimaryPrivKey) (N : Nat) (hN : sk.p * sk.q = N) (hN1 : 1 < N)
    (ctx : Int) (b : Blinded G1) (issuanceNonce : Int)
    (H : (ZMod n)ˣ) (vPrime : Int) (hU : b.u = val (S ^ vPrime * H))
    (ivals hvals : Map CredentialValue)
    (hik : ∀ e ∈ ivals, e.2.isKnown = true → pk.r.hasKey e.1 = true)
    (hhk : ∀ e ∈ signedAttrs hvals, pk.r.hasKey e.1 = true)
    (hvalsEq : attrProd R (signedAttrs hvals) = H * attrProd R (ivals.filter (fun e => e.2.isKnown)))
    (va e rnd : Int) (he0 : 0 ≤ e) (hep : isPrime e = true) (heN : Int.gcd e N = 1)
    (hord : (Z / (S ^ generateVPrimePrime va * (S ^ vPrime * H) * C ^ ctx *
      attrProd R (ivals.filter (fun e => e.2.isKnown)))) ^ N = 1) :
    ∃ A q sp, newPrimaryCredential pk sk ctx ivals va b e =
        .ok ({ m2 := ctx, a := val A, e := e, v := generateVPrimePrime va }, q) ∧
      newSigProof sha pk sk { m2 := ctx, a := val A, e := e, v := generateVPrimePrime va } q issuanceNonce rnd = .ok sp ∧
      checkSigProof sha isPrime { m2 := ctx, a := val A, e := e, v := vPrime + generateVPrimePrime va } hvals sp pk
        issuanceNonce = .ok () ∧
      CLEquation S Z C R A e (vPrime + generateVPrimePrime va) ctx hvals ∧
      ∃ d : Int, A = (Z / (S ^ generateVPrimePrime va * (S ^ vPrime * H) * C ^ ctx * attrProd R (ivals.filter (fun e => e.2.isKnown)))) ^ d := by
  have hn := hk.hn
  have hn0 := neZero_of hn
  obtain ⟨d, hd, hd0, _, hd1⟩ := (inverse_spec e N he0 (one_lt_abs hN1)).1 heN
  set v2 := generateVPrimePrime va with hv2
  have hsign := signPrimary_units hk sk N hN ctx ivals hik v2 b _ hU e d hd
  simp only [] at hsign
  set Q := Z / (S ^ v2 * (S ^ vPrime * H) * C ^ ctx * attrProd R (ivals.filter (fun e => e.2.isKnown))) with hQ
  have hQe : (Q ^ d) ^ e = Q := by
    rw [← zpow_mul, zpow_modEq hord (a := d * e) (b := 1) (by rw [mul_comm]; exact hd1), zpow_one]
  have hNpos : (0 : Int) < (N : Int) := by omega
  unfold newPrimaryCredential newSigProof
  simp only []
  rw [← hv2, hsign, Res.ok_bind]
  refine ⟨Q ^ d, val Q, ?_⟩
  rw [hk.n_eq, (rep_val Q).modExp hn, Res.ok_bind, hN, hd, Res.ok_bind]
  set c := getHashAsInt sha [toBytes (val Q) ++ toBytes (val (Q ^ d)) ++ toBytes (val (Q ^ rnd)) ++ toBytes issuanceNonce] with hc
  have hce : modMul c d N = .ok (c * d % N) := by unfold modMul; exact modulus_eq_emod _ _ hNpos
  have hse : modSub rnd (c * d % N) N = .ok ((rnd - c * d % N) % N) := by unfold modSub; exact modulus_eq_emod _ _ hNpos
  rw [hce, Res.ok_bind, hse, Res.ok_bind]
  refine ⟨_, rfl, rfl, ?_, ?_, d, rfl⟩
  · set se := (rnd - c * d % N) % N with hsedef
    have hsemod : se ≡ rnd - c * d [ZMOD N] := by
      rw [hsedef]
      exact (Int.mod_modEq _ _).trans ((Int.ModEq.refl rnd).sub (Int.mod_modEq _ _))
    unfold checkSigProof
    rw [hep]
    simp only [Bool.not_true, Bool.false_eq_true, if_false]
    rw [recomputeQ_units hk _ _ hhk, Res.ok_bind, hk.n_eq, (rep_val _).modExp hn, Res.ok_bind]
    have hqq : Z / (S ^ (vPrime + v2) * C ^ ctx * attrProd R (signedAttrs hvals)) = Q := by
      rw [hQ, hvalsEq, zpow_add]
      congr 1
      simp only [mul_comm, mul_left_comm, mul_assoc]
    simp only []
    rw [hqq, hQe, if_neg (by simp), (rep_val _).modExp hn, Res.ok_bind]
    have hac : (Q ^ d) ^ (c + se * e) = Q ^ rnd := by
      rw [← zpow_mul]
      apply zpow_modEq hord
      have h1 : d * (c + se * e) = d * c + se * (e * d) := by ring
      rw [h1]
      have h2 : d * c + se * (e * d) ≡ d * c + se * 1 [ZMOD N] := (Int.ModEq.refl _).add ((Int.ModEq.refl _).mul hd1)
      have h3 : d * c + se * 1 ≡ d * c + (rnd - c * d) [ZMOD N] := by
        rw [mul_one]; exact (Int.ModEq.refl _).add hsemod
      have h4 : d * c + (rnd - c * d) = rnd := by ring
      rw [h4] at h3
      exact h2.trans h3
    rw [hac, ← hc, if_pos rfl]
    rfl
  · unfold CLEquation
    rw [hQe, hQ, hvalsEq, zpow_add]
    have ab : ∀ z a b c d f : (ZMod n)ˣ, z = z / (a * (b * c) * d * f) * (b * a) * d * (c * f) := by
      intro z a b c d f
      have h1 : z / (a * (b * c) * d * f) * (b * a) * d * (c * f) = z / (a * (b * c) * d * f) * (a * (b * c) * d * f) := by
        simp only [mul_comm, mul_left_comm, mul_assoc]
      rw [h1, div_mul_cancel]
    exact ab _ _ _ _ _ _

/-- `sign_credential` followed by `process_credential_signature` -/
theorem sign_then_process [DecidableEq GT] (pairing : G1 →ₗ[F] G2 →ₗ[F] GT) (sha : Bytes → Bytes) (isPrime : Int → Bool)
    (pk : CredPubKey G1 G2) {n : Nat} {S Z C : (ZMod n)ˣ} {R : String → (ZMod n)ˣ} (hk : KeyUnits pk.pKey n S Z C R)
    (sk : PrimaryPrivKey) (N : Nat) (hN : sk.p * sk.q = N) (hN1 : 1 < N)
    (proverId : String) (b : Blinded G1) (bp : BlindedProof) (nonce issuanceNonce : Int)
    (hb : checkBlindedProof sha b bp nonce pk.pKey = .ok ()) (H : (ZMod n)ˣ) (vPrime : Int) (hU : b.u = val (S ^ vPrime * H))
    (ivals hvals : Map CredentialValue)
    (hik : ∀ e ∈ ivals, e.2.isKnown = true → pk.pKey.r.hasKey e.1 = true)
    (hhk : ∀ e ∈ signedAttrs hvals, pk.pKey.r.hasKey e.1 = true)
    (hvalsEq : attrProd R (signedAttrs hvals) = H * attrProd R (ivals.filter (fun e => e.2.isKnown)))
    (va e rnd : Int) (he0 : 0 ≤ e) (hep : isPrime e = true) (heN : Int.gcd e N = 1)
    (hord : (Z / (S ^ generateVPrimePrime va * (S ^ vPrime * H) * C ^ genCredentialContext sha proverId none *
      attrProd R (ivals.filter (fun e => e.2.isKnown)))) ^ N = 1)
    (bf : BlindingFactors F) (hbf : bf.vPrime = vPrime) (revKeyPub : Option GT) (reg witness : Option G2) :
    ∃ sig sp, signCredential (F := F) (G2 := G2) sha proverId b bp nonce issuanceNonce ivals pk.pKey sk va e rnd = .ok (sig, sp) ∧
      ∃ sig' A, processCredentialSignature pairing sha isPrime sig hvals sp bf pk issuanceNonce revKeyPub reg witness = (sig', .ok ()) ∧
        sig'.p.a = val A ∧ sig'.p.e = e ∧ sig'.p.m2 = genCredentialContext sha proverId none ∧
        sig'.p.v = vPrime + generateVPrimePrime va ∧
        CLEquation S Z C R A sig'.p.e sig'.p.v sig'.p.m2 hvals ∧
        ∃ d : Int, A = (Z / (S ^ generateVPrimePrime va * (S ^ vPrime * H) * C ^ genCredentialContext sha proverId none *
          attrProd R (ivals.filter (fun e => e.2.isKnown)))) ^ d := by
  obtain ⟨A, q, sp, h1, h2, h3, h4⟩ := primary_sign_then_check sha isPrime pk.pKey hk sk N hN hN1
    (genCredentialContext sha proverId none) b issuanceNonce H vPrime hU ivals hvals hik hhk hvalsEq va e rnd he0 hep heN hord
  unfold signCredential
  rw [hb, Res.ok_bind]
  simp only []
  rw [h1, Res.ok_bind]
  simp only []
  rw [h2, Res.ok_bind]
  refine ⟨_, _, rfl, ?_⟩
  unfold processCredentialSignature
  simp only [hbf]
  rw [h3]
  exact ⟨_, A, rfl, rfl, rfl, rfl, rfl, h4⟩

/-- known attributes of a map -/
def knownAttrs (vals : Map CredentialValue) : List (String × CredentialValue) := vals.filter (fun e => e.2.isKnown)

theorem attrProd_perm {n : Nat} (R : String → (ZMod n)ˣ) {l l' : List (String × CredentialValue)} (h : l.Perm l') :
    attrProd R l = attrProd R l' := (h.map _).prod_eq

theorem nodup_of_keys {V : Type} {m : Map V} (h : (m.map (·.1)).Nodup) : m.Nodup := List.Nodup.of_map _ h

/-- two maps with the same known entries have the same known product -/
theorem known_prod_eq {n : Nat} (R : String → (ZMod n)ˣ) {m m' : Map CredentialValue} (h : (m.map (·.1)).Nodup)
    (h' : (m'.map (·.1)).Nodup) (heq : ∀ k v, (k, CredentialValue.known v) ∈ m ↔ (k, CredentialValue.known v) ∈ m') :
    attrProd R (knownAttrs m) = attrProd R (knownAttrs m') := by
  apply attrProd_perm
  unfold knownAttrs
  rw [List.perm_ext_iff_of_nodup ((nodup_of_keys h).filter _) ((nodup_of_keys h').filter _)]
  rintro ⟨k, cv⟩
  rw [List.mem_filter, List.mem_filter]
  cases cv with
  | known v => simp [heq k v]
  | hidden v => simp
  | commitment v b => simp

/-- the signed attributes of a map split into hidden and known ones -/
theorem signed_split {n : Nat} (R : String → (ZMod n)ˣ) {m : Map CredentialValue} (h : (m.map (·.1)).Nodup) :
    attrProd R (signedAttrs m) = hiddenProd R (attrValue m) (hiddenNames m) * attrProd R (knownAttrs m) := by
  have h1 : hiddenProd R (attrValue m) (hiddenNames m) = attrProd R (m.filter (fun e => e.2.isHidden)) := by
    unfold hiddenProd hiddenNames attrProd
    rw [List.map_map]
    congr 1
    apply List.map_congr_left
    intro e he
    simp only [Function.comp]
    rw [attrValue_of_mem h (List.mem_filter.1 he).1]
  rw [h1]
  unfold signedAttrs knownAttrs attrProd
  clear h h1
  induction m with
  | nil => simp
  | cons a m ih =>
    obtain ⟨k, cv⟩ := a
    cases cv <;> simp [List.filter_cons, ih, mul_left_comm, mul_assoc]

theorem attrProd_pow_one {n : Nat} {S : (ZMod n)ˣ} {N : Nat} (hS : S ^ N = 1) (xr : String → Int)
    (l : List (String × CredentialValue)) : attrProd (fun k => S ^ xr k) l ^ N = 1 := by
  unfold attrProd
  induction l with
  | nil => simp
  | cons a l ih =>
    rw [List.map_cons, List.prod_cons, mul_pow, ih, mul_one, ← zpow_mul, ← zpow_natCast, ← zpow_mul, mul_comm, zpow_mul,
      zpow_natCast, hS, one_zpow]

theorem zpow_pow_one {n : Nat} {S : (ZMod n)ˣ} {N : Nat} (hS : S ^ N = 1) (x : Int) : (S ^ x) ^ N = 1 := by
  rw [← zpow_natCast, ← zpow_mul, mul_comm, zpow_mul, zpow_natCast, hS, one_zpow]

theorem hiddenProd_pow_one {n : Nat} {S : (ZMod n)ˣ} {N : Nat} (hS : S ^ N = 1) (xr m : String → Int)
    (l : List String) : hiddenProd (fun k => S ^ xr k) m l ^ N = 1 := by
  unfold hiddenProd
  induction l with
  | nil => simp
  | cons a l ih =>
    rw [List.map_cons, List.prod_cons, mul_pow, ih, mul_one]
    exact zpow_pow_one (zpow_pow_one hS _) _

theorem attrProd_mem_zpowers {n : Nat} (S : (ZMod n)ˣ) (xr : String → Int) (l : List (String × CredentialValue)) :
    attrProd (fun k => S ^ xr k) l ∈ Subgroup.zpowers S := by
  unfold attrProd
  refine Subgroup.list_prod_mem _ fun x hx => ?_
  obtain ⟨e, -, rfl⟩ := List.mem_map.1 hx
  exact zpow_mem (zpow_mem (Subgroup.mem_zpowers S) _) _

theorem hiddenProd_mem_zpowers {n : Nat} (S : (ZMod n)ˣ) (xr m : String → Int) (l : List String) :
    hiddenProd (fun k => S ^ xr k) m l ∈ Subgroup.zpowers S := by
  unfold hiddenProd
  refine Subgroup.list_prod_mem _ fun x hx => ?_
  obtain ⟨e, -, rfl⟩ := List.mem_map.1 hx
  exact zpow_mem (zpow_mem (Subgroup.mem_zpowers S) _) _

/-- C19, end to end: for every two distinct odd primes, every attribute names, every randomness, every hash function and all
attribute maps of holder and issuer that agree on the known attributes, key generation, key proof, blinding, signing and
processing all succeed, and the holder is left with a credential that satisfies the CL equation for its attributes. -/
theorem issuance_end_to_end [DecidableEq GT] (pairing : G1 →ₗ[F] G2 →ₗ[F] GT) (sha : Bytes → Bytes) (isPrime : Int → Bool)
    (keys : List String) (hkeys : keys.Nodup)
    (P Q : Nat) (hP : P.Prime) (hQ : Q.Prime) (hP2 : P ≠ 2) (hQ2 : Q ≠ 2) (hPQ : P ≠ Q)
    (qr : Int) (hqr0 : 0 ≤ qr) (hqr : Int.gcd qr ((P * Q : Nat) : Int) = 1) (xz : Int) (xr : String → Int) (xctx : Int)
    (xzT : Int) (xrT : String → Int) (rKey : Option (Rev.PubKey G1 G2))
    (hvals ivals : Map CredentialValue) (hh : (hvals.map (·.1)).Nodup) (hi : (ivals.map (·.1)).Nodup)
    (hsub : ∀ k ∈ hvals.map (·.1), k ∈ keys)
    (hsame : ∀ k v, (k, CredentialValue.known v) ∈ ivals ↔ (k, CredentialValue.known v) ∈ hvals)
    (nonce issuanceNonce vPrime vT : Int) (mT rT : String → Int) (vrPrime : F) (proverId : String)
    (va e rnd : Int) (he0 : 0 ≤ e) (hep : isPrime e = true) (heN : Int.gcd e ((P / 2 * (Q / 2) : Nat) : Int) = 1)
    (revKeyPub : Option GT) (reg witness : Option G2) :
    ∃ pk sk md, newPrimaryKeys false keys P Q qr xz xr xctx = .ok (pk, sk, md) ∧
    ∃ kp, newKeyProof sha pk md xzT xrT = .ok kp ∧
    ∃ b bf bp, blindCredentialSecrets sha ⟨pk, rKey⟩ kp hvals nonce vPrime vT mT rT vrPrime = .ok (b, bf, bp) ∧
    ∃ sig sp, signCredential (F := F) (G2 := G2) sha proverId b bp nonce issuanceNonce ivals pk sk va e rnd = .ok (sig, sp) ∧
    ∃ sig' A S, processCredentialSignature pairing sha isPrime sig hvals sp bf ⟨pk, rKey⟩ issuanceNonce revKeyPub reg witness =
        (sig', .ok ()) ∧
      KeyUnits pk (P * Q) S (S ^ xz) (S ^ xctx) (fun k => S ^ xr k) ∧ sig'.p.a = val A ∧
      CLEquation S (S ^ xz) (S ^ xctx) (fun k => S ^ xr k) A sig'.p.e sig'.p.v sig'.p.m2 hvals ∧ A ∈ Subgroup.zpowers S ∧
      pk.r.map (·.1) = keys ∧ sig'.p.e = e ∧ sig'.p.m2 = genCredentialContext sha proverId none ∧
      sig'.p.v = vPrime + generateVPrimePrime va := by
  obtain ⟨pk, sk, md, hgen, S, hk, hsk, hord, hkn, hkl, hmz, hmr, hsq⟩ :=
    new_primary_keys_spec keys P Q hP hQ hP2 hQ2 hPQ qr hqr0 hqr xz xr xctx
  obtain ⟨kp, hkp, hkc⟩ := key_proof_complete sha pk md hk (by rw [hkn]; exact hkeys) hmz (by rw [hkn]; exact hmr) xzT xrT
  have hkey : ∀ k ∈ hvals.map (·.1), pk.r.hasKey k = true := by
    intro k hkm
    rw [hasKey_iff_mem, hkn]
    exact hsub k hkm
  obtain ⟨b, bf, bp, hb, hU, -, -, hbf, -, hbc⟩ := blinded_proof_complete sha ⟨pk, rKey⟩ kp hk hkc hvals hh
    (fun e he _ => hkey e.1 (List.mem_map.2 ⟨e, he, rfl⟩)) nonce vPrime vT mT rT vrPrime
  have hN1 : 1 < P / 2 * (Q / 2) := by
    have h1 := hP.two_le
    have h2 := hQ.two_le
    have ho1 := hP.eq_two_or_odd
    have ho2 := hQ.eq_two_or_odd
    rcases Nat.lt_or_ge P 5 with h | h
    · have : 2 ≤ Q / 2 := by omega
      have : 1 ≤ P / 2 := by omega
      nlinarith
    · have : 2 ≤ P / 2 := by omega
      have : 1 ≤ Q / 2 := by omega
      nlinarith
  obtain ⟨sig, sp, hsig, sig', A, hproc, hA, hse, hsm, hsv, hcl, d, hd⟩ := sign_then_process pairing sha isPrime ⟨pk, rKey⟩ hk sk
    (P / 2 * (Q / 2)) hsk hN1 proverId b bp nonce issuanceNonce hbc _ vPrime hU ivals hvals
    (by
      rintro ⟨k, cv⟩ he hkn
      cases cv with
      | known v => exact hkey k (List.mem_map.2 ⟨_, (hsame k v).1 he, rfl⟩)
      | hidden v => simp at hkn
      | commitment v b => simp at hkn)
    (fun e he => hkey e.1 (List.mem_map.2 ⟨e, (List.mem_filter.1 he).1, rfl⟩))
    (by
      rw [signed_split _ hh, known_prod_eq _ hi hh hsame |>.symm]
      rfl)
    va e rnd he0 hep heN
    (by
      rw [div_pow, mul_pow, mul_pow, mul_pow, mul_pow, attrProd_pow_one hord, hiddenProd_pow_one hord]
      simp only [zpow_pow_one hord, zpow_pow_one (zpow_pow_one hord _), mul_one, div_one])
    bf hbf revKeyPub reg witness
  refine ⟨pk, sk, md, hgen, kp, hkp, b, bf, bp, hb, sig, sp, hsig, sig', A, S, hproc, hk, hA, hcl, ?_, hkn, hse, hsm, hsv⟩
  rw [hd]
  have hself := Subgroup.mem_zpowers S
  exact zpow_mem (div_mem (zpow_mem hself _) (mul_mem (mul_mem (mul_mem (zpow_mem hself _) (mul_mem (zpow_mem hself _)
    (hiddenProd_mem_zpowers _ _ _ _))) (zpow_mem (zpow_mem hself _) _)) (attrProd_mem_zpowers _ _ _))) _

/-! ## Issuance with revocation -/

/-- Which part of the issuance with revocation decides: if the primary part is honest, the processing accepts exactly when
the check of the non-revocation part accepts. -/
theorem sign_with_revoc_then_process [DecidableEq GT] (mode : Overflow) (pairing : G1 →ₗ[F] G2 →ₗ[F] GT) (sha : Bytes → Bytes)
    (toF : Int → F) (isPrime : Int → Bool)
    (pk : CredPubKey G1 G2) (rpk : Rev.PubKey G1 G2) (hrpk : pk.rKey = some rpk) (rsk : Rev.PrivKey F)
    {n : Nat} {S Z C : (ZMod n)ˣ} {R : String → (ZMod n)ˣ} (hk : KeyUnits pk.pKey n S Z C R)
    (sk : PrimaryPrivKey) (N : Nat) (hN : sk.p * sk.q = N) (hN1 : 1 < N)
    (proverId : String) (b : Blinded G1) (bp : BlindedProof) (nonce issuanceNonce : Int)
    (hb : checkBlindedProof sha b bp nonce pk.pKey = .ok ()) (H : (ZMod n)ˣ) (vPrime : Int) (hU : b.u = val (S ^ vPrime * H))
    (vrPrime : F) (hur : b.ur = some (vrPrime • rpk.h2))
    (ivals hvals : Map CredentialValue)
    (hik : ∀ e ∈ ivals, e.2.isKnown = true → pk.pKey.r.hasKey e.1 = true)
    (hhk : ∀ e ∈ signedAttrs hvals, pk.pKey.r.hasKey e.1 = true)
    (hvalsEq : attrProd R (signedAttrs hvals) = H * attrProd R (ivals.filter (fun e => e.2.isKnown)))
    (revIdx maxCredNum : Nat) (byDefault : Bool) (regS : G2) (gamma : F) (tails : List G2)
    (va e rnd : Int) (vr c : F) (he0 : 0 ≤ e) (hep : isPrime e = true) (heN : Int.gcd e N = 1)
    (hord : (Z / (S ^ generateVPrimePrime va * (S ^ vPrime * H) * C ^ genCredentialContext sha proverId (some revIdx) *
      attrProd R (ivals.filter (fun e => e.2.isKnown)))) ^ N = 1)
    (rsig : Rev.NonRevSig F G1 G2) (regS' : G2) (dS : Option (Rev.Delta G2))
    (hrev : Rev.newNonRevocationCredential mode revIdx (toF (genCredentialContext sha proverId (some revIdx)))
      (Rev.blindedRevocationSecret rpk vrPrime) rpk rsk maxCredNum byDefault regS gamma tails vr c = .ok (rsig, regS', dS))
    (z : GT) (reg w : G2) :
    ∃ sig sp, signCredentialWithRevoc mode sha toF proverId b bp nonce issuanceNonce ivals pk sk (some rsk) revIdx maxCredNum
        byDefault regS gamma tails va e rnd vr c = .ok (sig, sp, regS', dS) ∧ sig.r = some rsig ∧
      (processCredentialSignature pairing sha isPrime sig hvals sp ⟨vPrime, some vrPrime⟩ pk issuanceNonce (some z) (some reg)
        (some w)).2 = (Rev.processNonRevocationCredential pairing rsig vrPrime rpk z reg w).2 := by
  obtain ⟨A, q, sp, h1, h2, h3, _⟩ := primary_sign_then_check sha isPrime pk.pKey hk sk N hN hN1
    (genCredentialContext sha proverId (some revIdx)) b issuanceNonce H vPrime hU ivals hvals hik hhk hvalsEq va e rnd he0 hep
    heN hord
  unfold signCredentialWithRevoc
  rw [hb, Res.ok_bind]
  simp only []
  rw [h1, Res.ok_bind]
  simp only []
  have hur' : b.ur = some (Rev.blindedRevocationSecret rpk vrPrime) := hur
  rw [hur', Res.ofOption_some, Res.ok_bind, hrpk, Res.ofOption_some, Res.ok_bind, Res.ofOption_some, Res.ok_bind, hrev,
    Res.ok_bind]
  simp only []
  rw [h2, Res.ok_bind]
  refine ⟨_, _, rfl, rfl, ?_⟩
  unfold processCredentialSignature
  simp only []
  rw [h3, hrpk]

/-- C19 with C28: a credential with a revocation part is accepted by the holder exactly if its index is in the issued set of
the registry the holder processes it against. -/
theorem revocable_issuance_accepted_iff [DecidableEq GT] [DecidableEq G2] (mode : Overflow) (pairing : G1 →ₗ[F] G2 →ₗ[F] GT)
    (sha : Bytes → Bytes) (toF : Int → F) (isPrime : Int → Bool)
    (g h h0 h1 h2 htilde : G1) (u hCap gDash : G2) (x xsk : F) (rpk : Rev.PubKey G1 G2) (rsk : Rev.PrivKey F)
    (hkeys : Rev.newRevocationKeys g h h0 h1 h2 htilde u hCap gDash x xsk = (rpk, rsk))
    (pk : CredPubKey G1 G2) (hrpk : pk.rKey = some rpk)
    {n : Nat} {S Z C : (ZMod n)ˣ} {R : String → (ZMod n)ˣ} (hk : KeyUnits pk.pKey n S Z C R)
    (sk : PrimaryPrivKey) (N : Nat) (hN : sk.p * sk.q = N) (hN1 : 1 < N)
    (proverId : String) (b : Blinded G1) (bp : BlindedProof) (nonce issuanceNonce : Int)
    (hb : checkBlindedProof sha b bp nonce pk.pKey = .ok ()) (H : (ZMod n)ˣ) (vPrime : Int) (hU : b.u = val (S ^ vPrime * H))
    (vrPrime : F) (hur : b.ur = some (vrPrime • rpk.h2))
    (ivals hvals : Map CredentialValue)
    (hik : ∀ e ∈ ivals, e.2.isKnown = true → pk.pKey.r.hasKey e.1 = true)
    (hhk : ∀ e ∈ signedAttrs hvals, pk.pKey.r.hasKey e.1 = true)
    (hvalsEq : attrProd R (signedAttrs hvals) = H * attrProd R (ivals.filter (fun e => e.2.isKnown)))
    (revIdx max : Nat) (byDefault : Bool) (regS : G2) (γ : F)
    (va e rnd : Int) (vr c : F) (he0 : 0 ≤ e) (hep : isPrime e = true) (heN : Int.gcd e N = 1)
    (hord : (Z / (S ^ generateVPrimePrime va * (S ^ vPrime * H) * C ^ genCredentialContext sha proverId (some revIdx) *
      attrProd R (ivals.filter (fun e => e.2.isKnown)))) ^ N = 1)
    (hmax : 2 * max + 1 < 2 ^ 32) (z : GT) (reg0 : G2) (gen : Rev.TailsGen F G2)
    (hsetup : Rev.newRevocationRegistryDef mode pairing rpk max byDefault γ = .ok (z, reg0, gen))
    (hi : revIdx ∈ Finset.Icc 1 max) (hc : x + c ≠ 0) (hsk : xsk + γ ^ revIdx ≠ 0)
    (rsig : Rev.NonRevSig F G1 G2) (regS' : G2) (dS : Option (Rev.Delta G2))
    (hrev : Rev.newNonRevocationCredential mode revIdx (toF (genCredentialContext sha proverId (some revIdx)))
      (Rev.blindedRevocationSecret rpk vrPrime) rpk rsk max byDefault regS γ (Rev.collectTails gen) vr c = .ok (rsig, regS', dS))
    (ops : List Rev.Op) (hops : Rev.ValidHistory max byDefault (Rev.initialSet max byDefault) ops) (reg : G2)
    (ds : List (Rev.Delta G2))
    (hrun : Rev.runOps mode max byDefault (Rev.collectTails gen) ops reg0 = .ok (reg, ds)) (D : Rev.Delta G2)
    (hD : Rev.mergeAll (Rev.Delta.fromParts none reg0 ∅ ∅) ds = .ok D)
    (w : G2) (hw : Rev.witnessNew mode revIdx max byDefault D (Rev.collectTails gen) = .ok w)
    (hnd : pairing g gDash ≠ 0) (hγ : γ ≠ 0) :
    ∃ sig sp, signCredentialWithRevoc mode sha toF proverId b bp nonce issuanceNonce ivals pk sk (some rsk) revIdx max
        byDefault regS γ (Rev.collectTails gen) va e rnd vr c = .ok (sig, sp, regS', dS) ∧
      ((processCredentialSignature pairing sha isPrime sig hvals sp ⟨vPrime, some vrPrime⟩ pk issuanceNonce (some z) (some reg)
        (some w)).2 = .ok () ↔ revIdx ∈ Rev.effectAll byDefault (Rev.initialSet max byDefault) ops) := by
  obtain ⟨sig, sp, hs, _, hp⟩ := sign_with_revoc_then_process mode pairing sha toF isPrime pk rpk hrpk rsk hk sk N hN hN1
    proverId b bp nonce issuanceNonce hb H vPrime hU vrPrime hur ivals hvals hik hhk hvalsEq revIdx max byDefault regS γ
    (Rev.collectTails gen) va e rnd vr c he0 hep heN hord rsig regS' dS hrev z reg w
  refine ⟨sig, sp, hs, ?_⟩
  rw [hp]
  exact Rev.nonrevocation_credential_accepted_iff mode pairing g h h0 h1 h2 htilde u hCap gDash x xsk rpk rsk hkeys max byDefault
    γ hmax z reg0 gen hsetup revIdx hi _ vrPrime vr c hc hsk regS regS' rsig dS hrev ops hops reg ds hrun D hD w hw hnd hγ

/-! ## What the holder's check guarantees -/

/-- The holder's check is sound against any issuer: whatever signature and proof it is given, an accepted signature satisfies
the CL equation for the holder's attributes (committed attributes excepted), all of which are in the key.  The only
assumption on the primality test is that it rejects numbers below two. -/
theorem holder_check_sound (sha : Bytes → Bytes) (isPrime : Int → Bool) (hprime : ∀ x, isPrime x = true → 1 < x)
    {pk : PrimaryPubKey} {n : Nat} {S Z C : (ZMod n)ˣ} {R : String → (ZMod n)ˣ} (hk : KeyUnits pk n S Z C R)
    (sig : PrimarySig) (vals : Map CredentialValue) (sp : SigProof) (nonce : Int)
    (h : checkSigProof sha isPrime sig vals sp pk nonce = .ok ()) :
    (∀ e ∈ signedAttrs vals, pk.r.hasKey e.1 = true) ∧ isPrime sig.e = true ∧
      ∃ A : (ZMod n)ˣ, ((sig.a : Int) : ZMod n) = A ∧ CLEquation S Z C R A sig.e sig.v sig.m2 vals := by
  have hn := hk.hn
  have hn0 := neZero_of hn
  unfold checkSigProof at h
  cases hp : isPrime sig.e with
  | false => rw [hp] at h; simp at h
  | true =>
    rw [hp] at h
    simp only [Bool.not_true, Bool.false_eq_true, if_false] at h
    rw [Res.bind_eq_ok] at h
    obtain ⟨q, hq, h⟩ := h
    rw [Res.bind_eq_ok] at h
    obtain ⟨q', hq', h⟩ := h
    have hqq : q = q' := by
      by_contra hne
      rw [if_pos hne] at h
      cases h
    have hin : ∀ e ∈ signedAttrs vals, pk.r.hasKey e.1 = true := by
      intro e he
      by_contra hno
      unfold recomputeQ at hq
      rw [if_pos] at hq
      · cases hq
      · rw [List.any_eq_true]
        have h2 := List.mem_filter.1 he
        exact ⟨e, h2.1, by rw [Bool.and_eq_true]; exact ⟨h2.2, by rw [Bool.not_eq_true']; simpa using hno⟩⟩
    refine ⟨hin, rfl, ?_⟩
    rw [recomputeQ_units hk _ _ hin] at hq
    cases hq
    have he1 := hprime _ hp
    obtain ⟨r, hr, -, -, hr3⟩ := mod_exp_nonneg_spec sig.a sig.e n (by omega) (by omega)
    rw [hk.n_eq, hr] at hq'
    cases hq'
    have h5 := (ZMod.intCast_eq_intCast_iff _ _ n).2 hr3
    rw [← hqq, cast_val, Int.cast_pow] at h5
    have hunit : IsUnit ((sig.a : Int) : ZMod n) := by
      rw [← isUnit_pow_iff (n := sig.e.toNat) (by omega), ← h5]
      exact Units.isUnit _
    obtain ⟨A, hA⟩ := hunit
    refine ⟨A, hA.symm, ?_⟩
    rw [← hA, ← Units.val_pow_eq_pow_val] at h5
    have h6 := Units.ext h5
    have h7 : A ^ sig.e.toNat = A ^ sig.e := by
      rw [← zpow_natCast, Int.toNat_of_nonneg (by omega)]
    unfold CLEquation
    rw [← h7, ← h6]
    have ab : ∀ z a b c : (ZMod n)ˣ, z = z / (a * b * c) * a * b * c := by
      intro z a b c
      rw [mul_assoc, mul_assoc, ← mul_assoc a, div_mul_cancel]
    exact ab _ _ _ _

/-- the same for the whole call -/
theorem process_sound [DecidableEq GT] (pairing : G1 →ₗ[F] G2 →ₗ[F] GT) (sha : Bytes → Bytes) (isPrime : Int → Bool)
    (hprime : ∀ x, isPrime x = true → 1 < x) {pk : CredPubKey G1 G2} {n : Nat} {S Z C : (ZMod n)ˣ} {R : String → (ZMod n)ˣ}
    (hk : KeyUnits pk.pKey n S Z C R) (sig sig' : CredSig F G1 G2) (vals : Map CredentialValue) (sp : SigProof)
    (bf : BlindingFactors F) (nonce : Int) (revKeyPub : Option GT) (reg witness : Option G2)
    (h : processCredentialSignature pairing sha isPrime sig vals sp bf pk nonce revKeyPub reg witness = (sig', .ok ())) :
    sig'.p = { sig.p with v := bf.vPrime + sig.p.v } ∧
      ∃ A : (ZMod n)ˣ, ((sig'.p.a : Int) : ZMod n) = A ∧ CLEquation S Z C R A sig'.p.e sig'.p.v sig'.p.m2 vals := by
  unfold processCredentialSignature at h
  simp only [] at h
  cases hc : checkSigProof sha isPrime { sig.p with v := bf.vPrime + sig.p.v } vals sp pk.pKey nonce with
  | err m => rw [hc] at h; simp at h
  | panic => rw [hc] at h; simp at h
  | ok y =>
    rw [hc] at h
    obtain ⟨-, -, A, hA, hcl⟩ := holder_check_sound sha isPrime hprime hk _ vals sp nonce hc
    have hsig' : sig'.p = { sig.p with v := bf.vPrime + sig.p.v } := by
      simp only [] at h
      split at h
      · have := congrArg (fun x => x.1.p) h
        exact this.symm
      · have := congrArg (fun x => x.1.p) h
        exact this.symm
    rw [hsig']
    exact ⟨rfl, A, hA, hcl⟩

/-! ## C31: a failed call changes the credential -/

/-- whatever the outcome of `process_credential_signature`, the primary signature has had `v'` added to `v` -/
theorem process_mutates [DecidableEq GT] (pairing : G1 →ₗ[F] G2 →ₗ[F] GT) (sha : Bytes → Bytes) (isPrime : Int → Bool)
    (pk : CredPubKey G1 G2) (sig : CredSig F G1 G2) (vals : Map CredentialValue) (sp : SigProof)
    (bf : BlindingFactors F) (nonce : Int) (revKeyPub : Option GT) (reg witness : Option G2) :
    (processCredentialSignature pairing sha isPrime sig vals sp bf pk nonce revKeyPub reg witness).1.p =
      { sig.p with v := bf.vPrime + sig.p.v } := by
  unfold processCredentialSignature
  simp only []
  split
  · rfl
  · rfl
  · split <;> rfl

/-- C31 is false of the code: if a call fails for any reason (for instance a stale witness), the object it leaves behind is
rejected by a repeated call with the right arguments, although those arguments are accepted for the original object. -/
theorem process_retry_fails [DecidableEq GT] (pairing : G1 →ₗ[F] G2 →ₗ[F] GT) (sha : Bytes → Bytes) (isPrime : Int → Bool)
    (pk : CredPubKey G1 G2) {n : Nat} {S Z C : (ZMod n)ˣ} {R : String → (ZMod n)ˣ} (hk : KeyUnits pk.pKey n S Z C R)
    (sig : CredSig F G1 G2) (bf : BlindingFactors F) (hv : S ^ bf.vPrime ≠ 1)
    -- arguments that are accepted
    (vals : Map CredentialValue) (sp : SigProof) (nonce : Int) (revKeyPub : Option GT) (reg witness : Option G2)
    (hok : (processCredentialSignature pairing sha isPrime sig vals sp bf pk nonce revKeyPub reg witness).2 = .ok ())
    -- arguments that are rejected
    (vals' : Map CredentialValue) (sp' : SigProof) (nonce' : Int) (revKeyPub' : Option GT) (reg' witness' : Option G2)
    (sig1 : CredSig F G1 G2) (m : String)
    (hfail : processCredentialSignature pairing sha isPrime sig vals' sp' bf pk nonce' revKeyPub' reg' witness' = (sig1, .err m)) :
    (processCredentialSignature pairing sha isPrime sig1 vals sp bf pk nonce revKeyPub reg witness).2 =
      .err "Invalid Signature correctness proof q != q'" := by
  have hn := hk.hn
  have hn0 := neZero_of hn
  have h1 := process_mutates pairing sha isPrime pk sig vals' sp' bf nonce' revKeyPub' reg' witness'
  rw [hfail] at h1
  simp only [] at h1
  unfold processCredentialSignature at hok ⊢
  simp only [] at hok ⊢
  rw [h1]
  simp only []
  cases hc : checkSigProof sha isPrime { sig.p with v := bf.vPrime + sig.p.v } vals sp pk.pKey nonce with
  | err m => rw [hc] at hok; simp at hok
  | panic => rw [hc] at hok; simp at hok
  | ok y =>
    have hin : ∀ e ∈ signedAttrs vals, pk.pKey.r.hasKey e.1 = true := by
      intro e he
      by_contra hno
      have h2 := List.mem_filter.1 he
      unfold checkSigProof recomputeQ at hc
      split_ifs at hc with h3 h4
      · cases hc
      · apply h4
        rw [List.any_eq_true]
        exact ⟨e, h2.1, by rw [Bool.and_eq_true]; exact ⟨h2.2, by rw [Bool.not_eq_true']; simpa using hno⟩⟩
    have hchk : checkSigProof sha isPrime { sig.p with v := bf.vPrime + (bf.vPrime + sig.p.v) } vals sp pk.pKey nonce =
        .err "Invalid Signature correctness proof q != q'" := by
      unfold checkSigProof at hc ⊢
      simp only [] at hc ⊢
      rw [recomputeQ_units hk _ _ hin, Res.ok_bind] at hc ⊢
      split_ifs at hc ⊢ with h3
      rw [Res.bind_eq_ok] at hc
      obtain ⟨q', hq', hc⟩ := hc
      rw [hq', Res.ok_bind]
      by_cases hne : val (Z / (S ^ (bf.vPrime + sig.p.v) * C ^ sig.p.m2 * attrProd R (signedAttrs vals))) ≠ q'
      · simp only [] at hc
        rw [if_pos hne] at hc; cases hc
      · rw [not_not] at hne
        rw [if_pos]
        rw [← hne]
        intro heq
        have := val_injective heq
        rw [div_right_inj, mul_assoc, mul_assoc, mul_left_inj, zpow_add] at this
        exact hv (mul_eq_right.1 this)
    rw [hchk]

/-! ## Misuse of the blinded secrets -/

/-- C54: the issuer does not check that the attributes the holder hides are disjoint from those the issuer certifies.  A
holder who hides the value `δ` under the name of an attribute the issuer certifies with value `v` ends up with a
credential on `v + δ` that the check accepts. -/
theorem hidden_overlap_changes_known_attribute [DecidableEq GT] (pairing : G1 →ₗ[F] G2 →ₗ[F] GT) (sha : Bytes → Bytes)
    (isPrime : Int → Bool)
    (pk : CredPubKey G1 G2) {n : Nat} {S Z C : (ZMod n)ˣ} {R : String → (ZMod n)ˣ} (hk : KeyUnits pk.pKey n S Z C R)
    (kp : KeyProof) (hkp : checkKeyProof sha pk.pKey kp = .ok ())
    (sk : PrimaryPrivKey) (N : Nat) (hN : sk.p * sk.q = N) (hN1 : 1 < N)
    (hpow : S ^ N = 1 ∧ Z ^ N = 1 ∧ C ^ N = 1 ∧ ∀ k, pk.pKey.r.hasKey k = true → R k ^ N = 1)
    (k : String) (v δ : Int) (rest : Map CredentialValue) (hk1 : pk.pKey.r.hasKey k = true)
    (hrest : ∀ e ∈ rest, pk.pKey.r.hasKey e.1 = true ∧ e.2.isKnown = true)
    (proverId : String) (nonce issuanceNonce vPrime vT : Int) (mT rT : String → Int) (vrPrime : F)
    (va e rnd : Int) (he0 : 0 ≤ e) (hep : isPrime e = true) (heN : Int.gcd e N = 1) :
    -- the holder hides `δ` under the name `k` …
    ∃ b bf bp, blindCredentialSecrets sha pk kp [(k, .hidden δ)] nonce vPrime vT mT rT vrPrime = .ok (b, bf, bp) ∧
      -- … the issuer signs `v` under the name `k` …
      ∃ sig sp, signCredential (F := F) (G2 := G2) sha proverId b bp nonce issuanceNonce ((k, .known v) :: rest) pk.pKey sk va e rnd =
          .ok (sig, sp) ∧
        -- … and the credential is valid for `v + δ`.
        ∃ sig' A, processCredentialSignature (GT := GT) pairing sha isPrime sig ((k, .known (v + δ)) :: rest) sp bf pk issuanceNonce none none none =
            (sig', .ok ()) ∧ sig'.p.a = val A ∧
          CLEquation S Z C R A sig'.p.e sig'.p.v sig'.p.m2 ((k, .known (v + δ)) :: rest) := by
  obtain ⟨b, bf, bp, hb, hU, -, -, hbf, -, hbc⟩ := blinded_proof_complete sha pk kp hk hkp [(k, .hidden δ)] (by simp)
    (by simpa using hk1) nonce vPrime vT mT rT vrPrime
  have hH : hiddenProd R (attrValue [(k, .hidden δ)]) (hiddenNames [(k, .hidden δ)]) = R k ^ δ := by
    simp [hiddenProd, hiddenNames, attrValue, List.filter_cons]
  rw [hH] at hU
  have hprodN : attrProd R (((k, .known v) :: rest).filter (fun e => e.2.isKnown)) ^ N = 1 := by
    have : ∀ l : List (String × CredentialValue), (∀ e ∈ l, pk.pKey.r.hasKey e.1 = true) → attrProd R l ^ N = 1 := by
      intro l hl
      unfold attrProd
      induction l with
      | nil => simp
      | cons a l ih =>
        rw [List.map_cons, List.prod_cons, mul_pow, ih (fun e he => hl e (by simp [he])), mul_one]
        exact zpow_pow_one (hpow.2.2.2 _ (hl a (by simp))) _
    apply this
    intro e he
    rcases List.mem_cons.1 (List.mem_filter.1 he).1 with h | h
    · rw [h]; exact hk1
    · exact (hrest e h).1
  obtain ⟨sig, sp, hsig, sig', A, hproc, hA, -, -, -, hcl, -⟩ := sign_then_process pairing sha isPrime pk hk sk N hN hN1 proverId b bp
    nonce issuanceNonce hbc (R k ^ δ) vPrime hU ((k, .known v) :: rest) ((k, .known (v + δ)) :: rest)
    (by
      intro e he _
      rcases List.mem_cons.1 he with h | h
      · rw [h]; exact hk1
      · exact (hrest e h).1)
    (by
      intro e he
      rcases List.mem_cons.1 (List.mem_filter.1 he).1 with h | h
      · rw [h]; exact hk1
      · exact (hrest e h).1)
    (by
      have h1 : signedAttrs rest = rest := by
        unfold signedAttrs
        rw [List.filter_eq_self]
        intro e he
        rw [(hrest e he).2]; rfl
      have h2 : rest.filter (fun e => e.2.isKnown) = rest := by
        rw [List.filter_eq_self]
        exact fun e he => (hrest e he).2
      have h3 : signedAttrs ((k, .known (v + δ)) :: rest) = (k, .known (v + δ)) :: rest := by
        unfold signedAttrs at h1 ⊢
        rw [List.filter_cons, h1]
        rfl
      rw [h3, List.filter_cons, h2]
      simp only [CredentialValue.isKnown_known, if_true, attrProd, List.map_cons, List.prod_cons, CredentialValue.value_known]
      rw [zpow_add]
      simp only [mul_comm, mul_left_comm, mul_assoc])
    va e rnd he0 hep heN
    (by
      rw [div_pow, mul_pow, mul_pow, mul_pow, mul_pow, hprodN, hpow.2.1, zpow_pow_one hpow.1, zpow_pow_one hpow.1,
        zpow_pow_one hpow.2.2.1, zpow_pow_one (hpow.2.2.2 _ hk1)]
      simp)
    bf hbf none none none
  exact ⟨b, bf, bp, hb, sig, sp, hsig, sig', A, hproc, hA, hcl⟩

/-- the commitment the issuer recomputes, as a unit -/
theorem blindedCap_units {pk : PrimaryPubKey} {n : Nat} {S Z C : (ZMod n)ˣ} {R : String → (ZMod n)ˣ}
    (hk : KeyUnits pk n S Z C R) (b : Blinded G1) (U : (ZMod n)ˣ) (hU : Rep b.u U) (pr : BlindedProof) (m : String → Int)
    (hin : ∀ k ∈ b.hidden, pk.r.hasKey k = true) (hm : ∀ k ∈ b.hidden, pr.mCaps.lookup k = some (m k)) :
    blindedCap pk b pr = .ok (val (U⁻¹ ^ pr.c * S ^ pr.vDashCap * hiddenProd R m b.hidden)) := by
  have hn := hk.hn
  have hn0 := neZero_of hn
  unfold blindedCap hiddenProd
  rw [hk.n_eq, hU.inverse hn, Res.ok_bind, (rep_val _).modExp hn, Res.ok_bind, hk.s.modExp hn, Res.ok_bind,
    (rep_val _).modMul (rep_val _), foldl_units _ (fun k => R k ^ m k) _ (by
      intro u k hkm
      obtain ⟨x, hx⟩ := hasKey_iff.1 (hin k hkm)
      simp only []
      rw [hx, Res.ofOption_some, Res.ok_bind, hm k hkm, Res.unwrap_some, Res.ok_bind, Res.ok_bind,
        (hk.r _ _ hx).modExp hn, Res.ok_bind]
      exact (rep_val _).modMul (rep_val _))]

/-- C18 (soundness): two proofs for the same blinded secrets with the same recomputed commitment yield an opening of the
difference-of-challenges power of the blinded value over exactly the declared hidden attributes. -/
theorem blinded_proof_sound {pk : PrimaryPubKey} {n : Nat} {S Z C : (ZMod n)ˣ} {R : String → (ZMod n)ˣ}
    (hk : KeyUnits pk n S Z C R) (b : Blinded G1) (U : (ZMod n)ˣ) (hU : Rep b.u U) (pr pr' : BlindedProof) (m m' : String → Int)
    (hin : ∀ k ∈ b.hidden, pk.r.hasKey k = true) (hm : ∀ k ∈ b.hidden, pr.mCaps.lookup k = some (m k))
    (hm' : ∀ k ∈ b.hidden, pr'.mCaps.lookup k = some (m' k)) (h : blindedCap pk b pr = blindedCap pk b pr') :
    U ^ (pr.c - pr'.c) = S ^ (pr.vDashCap - pr'.vDashCap) * hiddenProd R (fun k => m k - m' k) b.hidden := by
  have hn0 := neZero_of hk.hn
  rw [blindedCap_units hk b U hU pr m hin hm, blindedCap_units hk b U hU pr' m' hin hm'] at h
  injection h with h
  have h := val_injective h
  have hsub : hiddenProd R (fun k => m k - m' k) b.hidden = hiddenProd R m b.hidden / hiddenProd R m' b.hidden := by
    unfold hiddenProd
    induction b.hidden with
    | nil => simp
    | cons a l ih =>
      rw [List.map_cons, List.prod_cons, ih, List.map_cons, List.map_cons, List.prod_cons, List.prod_cons]
      simp only [zpow_sub]
      rw [← div_eq_mul_inv, div_mul_div_comm]
  rw [hsub, zpow_sub, zpow_sub, ← div_eq_mul_inv, ← div_eq_mul_inv, div_mul_div_comm, div_eq_div_iff_mul_eq_mul]
  rw [inv_zpow, inv_zpow] at h
  have := congrArg (fun x => U ^ pr.c * U ^ pr'.c * x) h
  have ab : ∀ a b c d : (ZMod n)ˣ, a * b * (a⁻¹ * c * d) = b * (c * d) := by
    intro a b c d
    have h1 : a * b * (a⁻¹ * c * d) = (a * a⁻¹) * (b * (c * d)) := by simp only [mul_comm, mul_left_comm, mul_assoc]
    rw [h1, mul_inv_cancel, one_mul]
  rw [ab, mul_comm (U ^ pr.c), ab] at this
  rw [← this, mul_comm]

/-- C56: the issuer panics on a request that declares a hidden attribute of the key without giving a response for it: any
holder can crash an issuer. -/
theorem sign_panics_on_missing_response {pk : PrimaryPubKey} {n : Nat} {S Z C : (ZMod n)ˣ} {R : String → (ZMod n)ˣ}
    (hk : KeyUnits pk n S Z C R) (sha : Bytes → Bytes) (proverId : String) (b : Blinded G1) (U : (ZMod n)ˣ) (hU : Rep b.u U)
    (bp : BlindedProof) (nonce issuanceNonce : Int) (vals : Map CredentialValue) (sk : PrimaryPrivKey) (va e rnd : Int)
    (hin : ∀ k ∈ b.hidden, pk.r.hasKey k = true) (k : String) (hkm : k ∈ b.hidden) (hno : bp.mCaps.lookup k = none) :
    signCredential (F := F) (G2 := G2) sha proverId b bp nonce issuanceNonce vals pk sk va e rnd = .panic := by
  have hn := hk.hn
  have hn0 := neZero_of hn
  have hpan : blindedCap pk b bp = .panic := by
    unfold blindedCap
    rw [hk.n_eq, hU.inverse hn, Res.ok_bind, (rep_val _).modExp hn, Res.ok_bind, hk.s.modExp hn, Res.ok_bind,
      (rep_val _).modMul (rep_val _)]
    generalize U⁻¹ ^ bp.c * S ^ bp.vDashCap = w
    generalize hlst : b.hidden = l at hin hkm
    clear hlst
    have hpanic : ∀ (l : List String), l.foldl (fun (acc : Res String Int) k =>
      match acc with
      | .panic => .panic
      | _ => do
        let r ← Res.ofOption "Value by key not found in cred_pr_pub_key.r" (pk.r.lookup k)
        let m ← Res.unwrap (bp.mCaps.lookup k)
        let a ← acc
        let x ← modExp r m n
        modMul a x n) .panic = .panic := by
      intro l
      induction l with
      | nil => rfl
      | cons a l ih => rw [List.foldl_cons]; exact ih
    induction l generalizing w with
    | nil => simp at hkm
    | cons a l ih =>
      rw [List.foldl_cons]
      obtain ⟨x, hx⟩ := hasKey_iff.1 (hin a (by simp))
      simp only []
      rw [hx, Res.ofOption_some, Res.ok_bind]
      cases hl : bp.mCaps.lookup a with
      | none =>
        rw [Res.unwrap_none, Res.panic_bind]
        exact hpanic l
      | some y =>
        rw [Res.unwrap_some, Res.ok_bind, Res.ok_bind, (hk.r _ _ hx).modExp hn, Res.ok_bind, (rep_val _).modMul (rep_val _)]
        apply ih
        · exact fun k hk => hin k (by simp [hk])
        · rcases List.mem_cons.1 hkm with h | h
          · rw [h, hl] at hno; cases hno
          · exact h
  unfold signCredential checkBlindedProof
  rw [hpan]
  rfl

end

/-- C57: the context of a credential without revocation index equals that of the credential with index `2^32 - 1`, and
otherwise the context only depends on the prover id and the index. -/
theorem context_none_eq_max (sha : Bytes → Bytes) (proverId : String) :
    genCredentialContext sha proverId none = genCredentialContext sha proverId (some 4294967295) := by
  unfold genCredentialContext
  have : u32AsI32 4294967295 = -1 := by decide
  simp [this]

theorem u32AsI32_injective {i j : Nat} (hi : i < 2 ^ 32) (hj : j < 2 ^ 32) (h : u32AsI32 i = u32AsI32 j) : i = j := by
  unfold u32AsI32 at h
  split_ifs at h <;> omega

theorem utf8_injective {s t : String} (h : utf8 s = utf8 t) : s = t := by
  unfold utf8 at h
  exact String.toByteArray_inj.mp (ByteArray.ext (Array.toList_inj.mp h))

/-- the number the issuer prints for an optional index -/
def printedIndex (revIdx : Option Nat) : Int := (revIdx.map u32AsI32).getD (-1)

/-- the byte string hashed last for a prover and an index -/
def contextInput (sha : Bytes → Bytes) (proverId : String) (revIdx : Option Nat) : Bytes :=
  toBytes (encodeAttribute sha (utf8 proverId) true) ++ toBytes (encodeAttribute sha (utf8 (toString (printedIndex revIdx))) true)

theorem encodeAttribute_toBytes_inj (sha : Bytes → Bytes) (n : Nat) (hlen : ∀ m, (sha m).length = n) (m m' : Bytes)
    (h : toBytes (encodeAttribute sha m true) = toBytes (encodeAttribute sha m' true)) : sha m = sha m' := by
  have h2 := congrArg BN.fromBytes h
  rw [BN.from_to_bytes _ (by simp [encodeAttribute, BN.fromBytes]), BN.from_to_bytes _ (by simp [encodeAttribute, BN.fromBytes])] at h2
  exact (encode_attribute_collision_iff sha n hlen m m' true).mp h2

/-- C57, what does hold.  Two issuances to the same prover with different indices (`u32`; no index counts as `2^32 - 1`) get
different contexts unless SHA-256 collides on one of two named pairs of different byte strings: the two final hash inputs,
or the two decimal index strings. -/
theorem context_distinguishes_indices (sha : Bytes → Bytes) (n : Nat) (hlen : ∀ m, (sha m).length = n) (proverId : String)
    (r r' : Option Nat) (hr : ∀ i ∈ r, i < 2 ^ 32) (hr' : ∀ i ∈ r', i < 2 ^ 32)
    (hne : r.getD 4294967295 ≠ r'.getD 4294967295)
    (h : genCredentialContext sha proverId r = genCredentialContext sha proverId r') :
    (contextInput sha proverId r ≠ contextInput sha proverId r' ∧
      sha (contextInput sha proverId r) = sha (contextInput sha proverId r')) ∨
    (utf8 (toString (printedIndex r)) ≠ utf8 (toString (printedIndex r')) ∧
      sha (utf8 (toString (printedIndex r))) = sha (utf8 (toString (printedIndex r')))) := by
  have hpi : ∀ r : Option Nat, printedIndex r = u32AsI32 (r.getD 4294967295) := by
    intro r
    cases r with
    | none => decide
    | some i => rfl
  have hb : ∀ r : Option Nat, (∀ i ∈ r, i < 2 ^ 32) → r.getD 4294967295 < 2 ^ 32 := by
    intro r h
    cases r with
    | none => simp
    | some i => exact h i rfl
  have hdec : printedIndex r ≠ printedIndex r' := by
    intro e
    rw [hpi, hpi] at e
    exact hne (u32AsI32_injective (hb r hr) (hb r' hr') e)
  have hs : sha (contextInput sha proverId r) = sha (contextInput sha proverId r') := by
    have h2 : BN.fromBytes (sha (contextInput sha proverId r)) = BN.fromBytes (sha (contextInput sha proverId r')) := by
      simpa [genCredentialContext, getHashAsInt, contextInput, printedIndex] using h
    exact ofBe_injective _ _ (by rw [hlen, hlen]) (by simpa [BN.fromBytes] using h2)
  by_cases hc : contextInput sha proverId r = contextInput sha proverId r'
  · right
    have h3 := List.append_cancel_left hc
    refine ⟨fun e => hdec (Int.repr_injective (utf8_injective e)), ?_⟩
    exact encodeAttribute_toBytes_inj sha n hlen _ _ h3
  · exact Or.inl ⟨hc, hs⟩

/-- Different prover ids: equal contexts mean a collision of the final hash, a collision of the hashes of the two ids, or that
the two encodings of the ids have different lengths — they are concatenated without separator or fixed width, so when
leading zero bytes are dropped the boundary between id and index is ambiguous. -/
theorem context_distinguishes_provers (sha : Bytes → Bytes) (n : Nat) (hlen : ∀ m, (sha m).length = n) (p p' : String)
    (r r' : Option Nat) (hne : p ≠ p') (h : genCredentialContext sha p r = genCredentialContext sha p' r') :
    (contextInput sha p r ≠ contextInput sha p' r' ∧ sha (contextInput sha p r) = sha (contextInput sha p' r')) ∨
    (utf8 p ≠ utf8 p' ∧ sha (utf8 p) = sha (utf8 p')) ∨
    (toBytes (encodeAttribute sha (utf8 p) true)).length ≠ (toBytes (encodeAttribute sha (utf8 p') true)).length := by
  have hs : sha (contextInput sha p r) = sha (contextInput sha p' r') := by
    have h2 : BN.fromBytes (sha (contextInput sha p r)) = BN.fromBytes (sha (contextInput sha p' r')) := by
      simpa [genCredentialContext, getHashAsInt, contextInput, printedIndex] using h
    exact ofBe_injective _ _ (by rw [hlen, hlen]) (by simpa [BN.fromBytes] using h2)
  by_cases hc : contextInput sha p r = contextInput sha p' r'
  · right
    by_cases hl : (toBytes (encodeAttribute sha (utf8 p) true)).length = (toBytes (encodeAttribute sha (utf8 p') true)).length
    · left
      have h3 := (List.append_inj hc hl).1
      exact ⟨fun e => hne (utf8_injective e), encodeAttribute_toBytes_inj sha n hlen _ _ h3⟩
    · exact Or.inr hl
  · exact Or.inl ⟨hc, hs⟩

/-- With a hash that keeps the last byte, the contexts of indices 1 and 2 do differ. -/
example : genCredentialContext (fun b => [b.getLastD 0, 1]) "alice" (some 1) ≠
    genCredentialContext (fun b => [b.getLastD 0, 1]) "alice" (some 2) := by decide +kernel

/-- C58 (negation): the response that should hide the blinding factor `v'` of the master secret reveals it up to
`2^673 / c`: the mask is shorter than the secret (673 bits against 2128). -/
theorem blinding_response_leaks (sha : Bytes → Bytes) (pk : PrimaryPubKey) (b : BlindedFactors) (nonce : Int)
    (vals : Map CredentialValue) (vT : Int) (mT rT : String → Int) (hv0 : 0 ≤ vT) (hv1 : vT < 2 ^ 673) (pr : BlindedProof)
    (h : newBlindedProof sha pk b nonce vals vT mT rT = .ok pr) (hc : 0 < pr.c) :
    b.vPrime ≤ pr.vDashCap / pr.c ∧ pr.vDashCap / pr.c ≤ b.vPrime + 2 ^ 673 / pr.c := by
  unfold newBlindedProof at h
  simp only [Res.bind_eq_ok] at h
  obtain ⟨u0, _, ⟨uT, values⟩, _, h⟩ := h
  simp only [Res.pure_eq, Res.ok.injEq] at h
  have hcv : pr.vDashCap = pr.c * b.vPrime + vT := by rw [← h]
  rw [hcv, Int.add_comm, Int.add_mul_ediv_left _ _ hc.ne']
  constructor
  · have := Int.ediv_nonneg hv0 hc.le
    omega
  · have := Int.ediv_le_ediv hc hv1.le
    omega

/-! ## Concrete instances: the hypotheses can be met -/

section Examples
open Verif.Toy

/-- toy key names -/
def exKeys : List String := ["master_secret", "age", "ssn", "name"]
/-- toy holder attributes, one of each kind -/
def exHolder : Map CredentialValue :=
  [("master_secret", .hidden 5), ("age", .known 28), ("ssn", .commitment 9 4), ("name", .known 3)]
/-- toy issuer attributes: the known ones, in another order -/
def exIssuer : Map CredentialValue := [("name", .known 3), ("age", .known 28)]

/-- `issuance_end_to_end` applies: primes 7 and 11, one attribute of each kind, issuer and holder maps ordered differently -/
example := issuance_end_to_end (F := ZMod 101) toyE (fun b => b) (fun x => decide (1 < x)) exKeys (by decide) 7 11 (by norm_num)
  (by norm_num) (by norm_num) (by norm_num) (by norm_num) 2 (by norm_num) (by decide) 3 (fun k => (k.length : Int)) 4 8
  (fun _ => 9) none exHolder exIssuer (by decide) (by decide) (by decide)
  (by
    intro k v
    simp only [exIssuer, exHolder, List.mem_cons, List.not_mem_nil, Prod.mk.injEq, CredentialValue.known.injEq, reduceCtorEq,
      and_false, or_false, false_or]
    exact or_comm)
  10 11 6 7 (fun _ => 8) (fun _ => 9) (2 : ZMod 101) "prover" 12 7 13 (by norm_num) (by decide) (by decide) none none none

/-- `hidden_overlap_changes_known_attribute` applies to a generated key: an attribute certified as 17 becomes 18 -/
example : ∃ (pk : CredPubKey (ZMod 101) (ZMod 101)) (sk : PrimaryPrivKey) (b : Blinded (ZMod 101)) (bf : BlindingFactors (ZMod 101))
    (bp : BlindedProof) (sig sig' : CredSig (ZMod 101) (ZMod 101) (ZMod 101)) (sp : SigProof),
    signCredential (fun b => b) "prover" b bp 10 11 [("age", .known 17), ("name", .known 3)] pk.pKey sk 12 7 13 = .ok (sig, sp) ∧
    processCredentialSignature toyE (fun b => b) (fun x => decide (1 < x)) sig [("age", .known 18), ("name", .known 3)] sp bf pk 11
      none none none = (sig', .ok ()) := by
  obtain ⟨pk, sk, md, _, S, hk, hsk, hord, hkn, _, hmz, hmr, hsq⟩ :=
    new_primary_keys_spec exKeys 7 11 (by norm_num) (by norm_num) (by norm_num) (by norm_num) (by norm_num) 2 (by norm_num)
      (by decide) 3 (fun k => (k.length : Int)) 4
  obtain ⟨kp, _, hkc⟩ := key_proof_complete (fun b => b) pk md hk (by rw [hkn]; decide) hmz (by rw [hkn]; exact hmr) 8 (fun _ => 9)
  obtain ⟨b, bf, bp, _, sig, sp, h1, sig', A, h2, _⟩ := hidden_overlap_changes_known_attribute (F := ZMod 101) toyE (fun b => b)
    (fun x => decide (1 < x)) ⟨pk, none⟩ hk kp hkc sk (7 / 2 * (11 / 2)) hsk (by norm_num)
    ⟨hord, zpow_pow_one hord _, zpow_pow_one hord _, fun k _ => zpow_pow_one hord _⟩ "age" 17 1 [("name", .known 3)]
    (by rw [hasKey_iff_mem, hkn]; decide)
    (by
      intro e he
      rw [List.mem_singleton] at he
      subst he
      exact ⟨by rw [hasKey_iff_mem, hkn]; decide, rfl⟩)
    "prover" 10 11 6 7 (fun _ => 8) (fun _ => 9) (2 : ZMod 101) 12 7 13 (by norm_num) (by decide) (by decide)
  exact ⟨⟨pk, none⟩, sk, b, bf, bp, sig, sig', sp, h1, h2⟩

/-- `process_retry_fails` applies: the first call is made with an attribute map that misses the key, the second with the right
one (the blinding exponent is 1 and the generator is 4 modulo 77) -/
example : ∃ (pk : CredPubKey (ZMod 101) (ZMod 101)) (bf : BlindingFactors (ZMod 101))
    (sig sig1 : CredSig (ZMod 101) (ZMod 101) (ZMod 101)) (sp : SigProof) (m : String),
    (processCredentialSignature toyE (fun b => b) (fun x => decide (1 < x)) sig exHolder sp bf pk 11 none none none).2 = .ok () ∧
    processCredentialSignature toyE (fun b => b) (fun x => decide (1 < x)) sig [("nokey", .known 1)] sp bf pk 11 none none none =
      (sig1, .err m) ∧
    (processCredentialSignature toyE (fun b => b) (fun x => decide (1 < x)) sig1 exHolder sp bf pk 11 none none none).2 =
      .err "Invalid Signature correctness proof q != q'" := by
  obtain ⟨pk, sk, md, _, S, hk, hsk, hord, hkn, _, hmz, hmr, hsq⟩ :=
    new_primary_keys_spec exKeys 7 11 (by norm_num) (by norm_num) (by norm_num) (by norm_num) (by norm_num) 2 (by norm_num)
      (by decide) 3 (fun k => (k.length : Int)) 4
  obtain ⟨kp, _, hkc⟩ := key_proof_complete (fun b => b) pk md hk (by rw [hkn]; decide) hmz (by rw [hkn]; exact hmr) 8 (fun _ => 9)
  have hkey : ∀ k ∈ exHolder.map (·.1), pk.r.hasKey k = true := by
    intro k hkm
    rw [hasKey_iff_mem, hkn]
    revert hkm k
    decide
  have hh : (exHolder.map (·.1)).Nodup := by decide
  obtain ⟨b, bf, bp, _, hU, -, -, hbf, -, hbc⟩ := blinded_proof_complete (F := ZMod 101) (G1 := ZMod 101) (G2 := ZMod 101) (fun b => b)
    ⟨pk, none⟩ kp hk hkc exHolder hh (fun e he _ => hkey e.1 (List.mem_map.2 ⟨e, he, rfl⟩)) 10 1 7 (fun _ => 8) (fun _ => 9) 2
  obtain ⟨sig, sp, _, sig', A, hproc, _⟩ := sign_then_process toyE (fun b => b) (fun x => decide (1 < x)) ⟨pk, none⟩ hk sk
    (7 / 2 * (11 / 2)) hsk (by norm_num) "prover" b bp 10 11 hbc _ 1 hU exHolder exHolder
    (fun e he _ => hkey e.1 (List.mem_map.2 ⟨e, he, rfl⟩))
    (fun e he => hkey e.1 (List.mem_map.2 ⟨e, (List.mem_filter.1 he).1, rfl⟩)) (signed_split _ hh)
    12 7 13 (by norm_num) (by decide) (by decide)
    (by
      rw [div_pow, mul_pow, mul_pow, mul_pow, mul_pow, attrProd_pow_one hord, hiddenProd_pow_one hord]
      simp only [zpow_pow_one hord, zpow_pow_one (zpow_pow_one hord _), mul_one, div_one])
    bf hbf none none none
  have hfail : ∃ sig1 m, processCredentialSignature toyE (fun b => b) (fun x => decide (1 < x)) sig [("nokey", .known 1)] sp bf
      ⟨pk, none⟩ 11 none none none = (sig1, .err m) := by
    have hno : Map.hasKey pk.r "nokey" = false := by
      rw [Bool.eq_false_iff, Ne, hasKey_iff_mem, hkn]
      decide
    unfold processCredentialSignature checkSigProof recomputeQ
    simp only [List.any_cons, hno]
    by_cases hp : (1 : Int) < sig.p.e
    · simp only [hp, decide_true]
      exact ⟨_, _, rfl⟩
    · simp only [hp, decide_false]
      exact ⟨_, _, rfl⟩
  obtain ⟨sig1, m, hfail⟩ := hfail
  refine ⟨⟨pk, none⟩, bf, sig, sig1, sp, m, by rw [hproc], hfail, ?_⟩
  refine process_retry_fails toyE (fun b => b) (fun x => decide (1 < x)) ⟨pk, none⟩ hk sig bf ?_ exHolder sp 11 none none none
    (by rw [hproc]) [("nokey", .known 1)] sp 11 none none none sig1 m hfail
  rw [hbf, zpow_one]
  intro h1
  rw [h1, Units.val_one] at hsq
  revert hsq
  decide

open Rev Rev.Example in
/-- `revocable_issuance_accepted_iff` applies: the registry of three credentials with the history of `Rev.Example`, in which
index 3 stays issued; the holder's processing succeeds -/
example : ∃ (pk : CredPubKey (ZMod 101) (ZMod 101)) (bf : BlindingFactors (ZMod 101))
    (sig : CredSig (ZMod 101) (ZMod 101) (ZMod 101)) (sp : SigProof) (z reg w : ZMod 101), sig.r.isSome = true ∧
    (processCredentialSignature toyE (fun b => b) (fun x => decide (1 < x)) sig exHolder sp bf pk 11 (some z) (some reg)
      (some w)).2 = .ok () := by
  obtain ⟨pk, sk, md, _, S, hk, hsk, hord, hkn, _, hmz, hmr, hsq⟩ :=
    new_primary_keys_spec exKeys 7 11 (by norm_num) (by norm_num) (by norm_num) (by norm_num) (by norm_num) 2 (by norm_num)
      (by decide) 3 (fun k => (k.length : Int)) 4
  obtain ⟨kp, _, hkc⟩ := key_proof_complete (fun b => b) pk md hk (by rw [hkn]; decide) hmz (by rw [hkn]; exact hmr) 8 (fun _ => 9)
  have hkey : ∀ k ∈ exHolder.map (·.1), pk.r.hasKey k = true := by
    intro k hkm
    rw [hasKey_iff_mem, hkn]
    revert hkm k
    decide
  have hh : (exHolder.map (·.1)).Nodup := by decide
  obtain ⟨b, bf, bp, _, hU, -, hur, hbf, -, hbc⟩ := blinded_proof_complete (F := ZMod 101) (G1 := ZMod 101) (G2 := ZMod 101) (fun b => b)
    ⟨pk, some keys.1⟩ kp hk hkc exHolder hh (fun e he _ => hkey e.1 (List.mem_map.2 ⟨e, he, rfl⟩)) 10 1 7 (fun _ => 8) (fun _ => 9) 12
  obtain ⟨gen, hg, h⟩ := registry_created .checked toyE keys.1 3 true γ0 (by norm_num)
  obtain ⟨ds, hds⟩ := accumulator_matches_issued_set .checked toyE keys.1 3 true γ0 (by norm_num) _ _ _ h
    history history_valid
  obtain ⟨D, D2, w1, w2, h1, h2, h3, -⟩ := witness_update_eq_recompute .checked toyE keys.1 3 true γ0 (by norm_num) _ _ _ h
    history [] history_valid trivial 3 le_rfl _ _ _ _ hds rfl
  obtain ⟨sig, sp, hsig, hiff⟩ := revocable_issuance_accepted_iff .checked toyE (fun b => b) (fun x => (x : ZMod 101))
    (fun x => decide (1 < x)) _ _ _ _ _ _ _ _ _ _ _ keys.1 keys.2 rfl ⟨pk, some keys.1⟩ rfl hk sk
    (7 / 2 * (11 / 2)) hsk (by norm_num) "prover" b bp 10 11 hbc _ 1 hU 12 hur exHolder exHolder
    (fun e he _ => hkey e.1 (List.mem_map.2 ⟨e, he, rfl⟩))
    (fun e he => hkey e.1 (List.mem_map.2 ⟨e, (List.mem_filter.1 he).1, rfl⟩)) (signed_split _ hh)
    3 3 true acc0 γ0 12 7 13 13 14 (by norm_num) (by decide) (by decide)
    (by
      rw [div_pow, mul_pow, mul_pow, mul_pow, mul_pow, attrProd_pow_one hord, hiddenProd_pow_one hord]
      simp only [zpow_pow_one hord, zpow_pow_one (zpow_pow_one hord _), mul_one, div_one])
    (by norm_num) _ _ _ h (by decide) (by decide) (by decide) _ _ _ rfl history history_valid _ _ hds D h1 w1 h3
    (by rw [toyE_apply]; decide) (by decide)
  refine ⟨⟨pk, some keys.1⟩, ⟨1, some 12⟩, sig, sp, _, _, w1, ?_, hiff.2 (by rw [history_effect]; decide)⟩
  unfold signCredentialWithRevoc at hsig
  simp only [Res.bind_eq_ok, Res.pure_eq, Res.ok.injEq, Prod.mk.injEq, Prod.exists] at hsig
  obtain ⟨_, _, _, _, _, _, _, _, _, _, _, _, _, _, _, _, _, hs, _⟩ := hsig
  rw [← hs]
  rfl

/-- `sign_panics_on_missing_response` applies: a request with hidden attribute `age` and no response for it -/
example : ∃ (pk : PrimaryPubKey) (sk : PrimaryPrivKey), signCredential (F := ZMod 101) (G1 := ZMod 101) (G2 := ZMod 101) (fun b => b)
    "prover" ⟨1, none, ["age"], []⟩ ⟨1, 2, [], []⟩ 10 11 exIssuer pk sk 12 7 13 = .panic := by
  obtain ⟨pk, sk, md, _, S, hk, hsk, hord, hkn, _⟩ :=
    new_primary_keys_spec exKeys 7 11 (by norm_num) (by norm_num) (by norm_num) (by norm_num) (by norm_num) 2 (by norm_num)
      (by decide) 3 (fun k => (k.length : Int)) 4
  refine ⟨pk, sk, sign_panics_on_missing_response hk _ _ _ 1 rep_one _ _ _ _ _ _ _ _ ?_ "age" (by simp) rfl⟩
  intro k hkm
  rw [List.mem_singleton] at hkm
  rw [hkm, hasKey_iff_mem, hkn]
  decide

end Examples

end Verif.CL
