import Verif.Props.CLHiding
import Verif.Props.CLHelpers
set_option linter.unusedVariables false
set_option linter.unusedSimpArgs false
set_option linter.unusedSectionVars false
/-!
# The credentials that the issuance protocol makes hide the holder (C190)
-/
namespace Verif.CL
open Verif BN

section
variable {F G1 G2 GT : Type} [Field F] [AddCommGroup G1] [Module F G1] [AddCommGroup G2] [Module F G2]
  [AddCommGroup GT] [Module F GT]

/-- A key pair and its proof as `Issuer::new_credential_def` makes them from two distinct odd primes below `2^1024` and any other random numbers. -/
structure MadeKey (sha : Bytes → Bytes) (pk : PrimaryPubKey) (sk : PrimaryPrivKey) (kp : KeyProof) where
  keys : List String
  nodup : keys.Nodup
  P : Nat
  Q : Nat
  primeP : P.Prime
  primeQ : Q.Prime
  oddP : P ≠ 2
  oddQ : Q ≠ 2
  ne : P ≠ Q
  sizeP : P < 2 ^ 1024
  sizeQ : Q < 2 ^ 1024
  qr : Int
  qr0 : 0 ≤ qr
  qrUnit : Int.gcd qr ((P * Q : Nat) : Int) = 1
  xz : Int
  xr : String → Int
  xctx : Int
  md : PubKeyMetadata
  made : newPrimaryKeys false keys P Q qr xz xr xctx = .ok (pk, sk, md)
  xzT : Int
  xrT : String → Int
  proof : newKeyProof sha pk md xzT xrT = .ok kp

/-- A credential that a holder obtained: blinding, signing and processing succeeded with random numbers of the sizes that the code draws (2128 bits, 2724 bits, a prime between
`2^596` and `2^596 + 2^119`), and the issuer was told the known attributes of the holder. -/
structure Obtained [DecidableEq GT] (pairing : G1 →ₗ[F] G2 →ₗ[F] GT) (sha : Bytes → Bytes) (isPrime : Int → Bool) (pk : CredPubKey G1 G2) (sk : PrimaryPrivKey) (kp : KeyProof)
    (vals : Map CredentialValue) (sig : CredSig F G1 G2) : Prop where
  run : ∃ (ivals : Map CredentialValue) (nonce issuanceNonce vPrime vT : Int) (mT rT : String → Int) (vrPrime : F) (proverId : String) (va e rnd : Int)
    (revKeyPub : Option GT) (reg witness : Option G2) (b : Blinded G1) (bf : BlindingFactors F) (bp : BlindedProof) (sig0 : CredSig F G1 G2) (sp : SigProof),
    ((ivals.map (·.1)).Nodup ∧ ∀ k v, (k, CredentialValue.known v) ∈ ivals ↔ (k, CredentialValue.known v) ∈ vals) ∧
    (0 ≤ vPrime ∧ vPrime < 2 ^ 2128) ∧ (0 ≤ va ∧ va < 2 ^ 2724) ∧ (2 ^ 596 ≤ e ∧ e ≤ 2 ^ 596 + 2 ^ 119) ∧
    blindCredentialSecrets sha pk kp vals nonce vPrime vT mT rT vrPrime = .ok (b, bf, bp) ∧
    signCredential (F := F) (G2 := G2) sha proverId b bp nonce issuanceNonce ivals pk.pKey sk va e rnd = .ok (sig0, sp) ∧
    processCredentialSignature pairing sha isPrime sig0 vals sp bf pk issuanceNonce revKeyPub reg witness = (sig, .ok ())

/-- signing only succeeds with an exponent that is invertible for the private key -/
theorem sign_ok_gcd {sha : Bytes → Bytes} {proverId : String} {b : Blinded G1} {bp : BlindedProof} {nonce issuanceNonce : Int} {ivals : Map CredentialValue}
    {pk : PrimaryPubKey} {sk : PrimaryPrivKey} {va e rnd : Int} {r : CredSig F G1 G2 × SigProof} (he : 0 ≤ e) (hN : 1 < |sk.p * sk.q|)
    (h : signCredential (F := F) (G2 := G2) sha proverId b bp nonce issuanceNonce ivals pk sk va e rnd = .ok r) : Int.gcd e (sk.p * sk.q) = 1 := by
  by_contra hc
  unfold signCredential newPrimaryCredential newSigProof at h
  simp only [] at h
  rw [Res.bind_eq_ok] at h
  obtain ⟨-, -, h⟩ := h
  rw [Res.bind_eq_ok] at h
  obtain ⟨⟨s, q⟩, hs, h⟩ := h
  rw [Res.bind_eq_ok] at hs
  obtain ⟨⟨a, q'⟩, -, hs⟩ := hs
  rw [Res.pure_eq, Res.ok.injEq, Prod.mk.injEq] at hs
  obtain ⟨rfl, rfl⟩ := hs
  simp only [] at h
  rw [(inverse_spec e _ he hN).2 hc] at h
  rw [Res.bind_eq_ok] at h
  obtain ⟨x, hx, -⟩ := h
  rw [Res.bind_eq_ok] at hx
  obtain ⟨y, -, hx⟩ := hx
  simp [Res.err_bind] at hx

/-- signing does not change the exponent -/
theorem sign_ok_exponent {sha : Bytes → Bytes} {proverId : String} {b : Blinded G1} {bp : BlindedProof} {nonce issuanceNonce : Int} {ivals : Map CredentialValue}
    {pk : PrimaryPubKey} {sk : PrimaryPrivKey} {va e rnd : Int} {r : CredSig F G1 G2 × SigProof}
    (h : signCredential (F := F) (G2 := G2) sha proverId b bp nonce issuanceNonce ivals pk sk va e rnd = .ok r) : r.1.p.e = e := by
  unfold signCredential newPrimaryCredential at h
  simp only [] at h
  rw [Res.bind_eq_ok] at h
  obtain ⟨-, -, h⟩ := h
  rw [Res.bind_eq_ok] at h
  obtain ⟨⟨s, q⟩, hs, h⟩ := h
  rw [Res.bind_eq_ok] at hs
  obtain ⟨⟨a, q'⟩, -, hs⟩ := hs
  rw [Res.pure_eq, Res.ok.injEq, Prod.mk.injEq] at hs
  obtain ⟨rfl, rfl⟩ := hs
  simp only [] at h
  rw [Res.bind_eq_ok] at h
  obtain ⟨x, -, h⟩ := h
  rw [Res.pure_eq, Res.ok.injEq] at h
  rw [← h]

/-- the holder only accepts exponents that pass the test of primality -/
theorem process_ok_prime [DecidableEq GT] {pairing : G1 →ₗ[F] G2 →ₗ[F] GT} {sha : Bytes → Bytes} {isPrime : Int → Bool} {sig0 sig : CredSig F G1 G2} {vals : Map CredentialValue}
    {sp : SigProof} {bf : BlindingFactors F} {pk : CredPubKey G1 G2} {nonce : Int} {revKeyPub : Option GT} {reg witness : Option G2}
    (h : processCredentialSignature pairing sha isPrime sig0 vals sp bf pk nonce revKeyPub reg witness = (sig, .ok ())) : isPrime sig0.p.e = true := by
  by_contra hc
  rw [Bool.not_eq_true] at hc
  unfold processCredentialSignature checkSigProof at h
  simp only [hc, Bool.not_false, if_true, Prod.mk.injEq, reduceCtorEq, and_false] at h

theorem generateVPrimePrime_bounds {va : Int} (h0 : 0 ≤ va) (h1 : va < 2 ^ 2724) : 0 ≤ generateVPrimePrime va ∧ generateVPrimePrime va < 2 ^ 2724 := by
  obtain ⟨a, rfl⟩ := Int.eq_ofNat_of_zero_le h0
  have e : generateVPrimePrime (a : Int) = ((a ||| 2 ^ (LARGE_VPRIME_PRIME - 1) : Nat) : Int) := by
    rw [← bitwise_or_spec, Nat.cast_pow]; rfl
  rw [e]
  refine ⟨Int.natCast_nonneg _, ?_⟩
  have ha : a < 2 ^ 2724 := by exact_mod_cast h1
  have hb : (2 : Nat) ^ (LARGE_VPRIME_PRIME - 1) < 2 ^ 2724 := Nat.pow_lt_pow_right (by norm_num) (by decide)
  exact_mod_cast Nat.or_lt_two_pow ha hb

/-- **C190.** Every credential that a holder obtains by running the protocol with a key of the issuer is a credential in the sense of C187: the signature is in the group generated by
the key's `S`, the numbers have the sizes needed, and the equation of the signature holds.  The group elements are those of the key. -/
theorem obtained_issued [DecidableEq GT] (pairing : G1 →ₗ[F] G2 →ₗ[F] GT) (sha : Bytes → Bytes) (hsha : ∀ m, (sha m).length = 32) (isPrime : Int → Bool)
    (pk : CredPubKey G1 G2) (sk : PrimaryPrivKey) (kp : KeyProof) (key : MadeKey sha pk.pKey sk kp) :
    ∃ S : (ZMod (key.P * key.Q))ˣ, ∀ it : Item F G1 G2 GT, it.pk = pk → Obtained pairing sha isPrime pk sk kp it.vals it.sig →
      (it.vals.map (·.1)).Nodup → (∀ a ∈ it.vals, a.1 ∈ key.keys ∧ a.2.isCommitment = false ∧ 0 ≤ a.2.value ∧ a.2.value < 2 ^ 256) →
      it.nonSchema ∪ it.schema = (it.vals.map (·.1)).toFinset → it.req.revealed ⊆ it.schema →
      Issued S (S ^ key.xz) (S ^ key.xctx) (fun k => S ^ key.xr k) it := by
  obtain ⟨pk0, sk0, md0, hgen, S, hk, hsk, hord, hkn, hkl, hmz, hmr, hsq⟩ :=
    new_primary_keys_spec key.keys key.P key.Q key.primeP key.primeQ key.oddP key.oddQ key.ne key.qr key.qr0 key.qrUnit key.xz key.xr key.xctx
  rw [key.made, Res.ok.injEq, Prod.mk.injEq, Prod.mk.injEq] at hgen
  obtain ⟨rfl, rfl, rfl⟩ := hgen
  refine ⟨S, fun it hpk hob hnd hval hattrs hrev => ?_⟩
  subst hpk
  obtain ⟨ivals, nonce, issuanceNonce, vPrime, vT, mT, rT, vrPrime, proverId, va, e, rnd, revKeyPub, reg, witness, b, bf, bp, sig0, sp, ⟨hi, hsame⟩, hvP, hva, he, hb, hsg, hpr⟩ := hob.run
  have he0 : 0 ≤ e := (pow_pos (by norm_num : (0 : Int) < 2) 596).le.trans he.1
  have hep : isPrime e = true := by rw [← sign_ok_exponent hsg]; exact process_ok_prime hpr
  have hN1 : 1 < key.P / 2 * (key.Q / 2) := by
    have h1 := key.primeP.two_le
    have h2 := key.primeQ.two_le
    have ho1 := key.primeP.eq_two_or_odd
    have ho2 := key.primeQ.eq_two_or_odd
    have := key.ne
    have := key.oddP
    have := key.oddQ
    rcases Nat.lt_or_ge key.P 5 with h | h
    · have : 2 ≤ key.Q / 2 := by omega
      have : 1 ≤ key.P / 2 := by omega
      nlinarith
    · have : 2 ≤ key.P / 2 := by omega
      have : 1 ≤ key.Q / 2 := by omega
      nlinarith
  have heN : Int.gcd e ((key.P / 2 * (key.Q / 2) : Nat) : Int) = 1 := by
    rw [← hsk]
    refine sign_ok_gcd he0 ?_ hsg
    rw [hsk]
    exact one_lt_abs hN1
  obtain ⟨pk1, sk1, md1, g1, kp1, g2, b1, bf1, bp1, g3, sig1, sp1, g4, sig', A, S', g5, hk', hA, hcl, hAS, -, hse, hsm, hsv⟩ :=
    issuance_end_to_end pairing sha isPrime key.keys key.nodup key.P key.Q key.primeP key.primeQ key.oddP key.oddQ key.ne key.qr key.qr0 key.qrUnit key.xz key.xr key.xctx
      key.xzT key.xrT it.pk.rKey it.vals ivals hnd hi (by
        intro k hk
        obtain ⟨a, ha, rfl⟩ := List.mem_map.1 hk
        exact (hval a ha).1) hsame nonce issuanceNonce vPrime vT mT rT vrPrime proverId va e rnd he0 hep heN revKeyPub reg witness
  rw [key.made, Res.ok.injEq, Prod.mk.injEq, Prod.mk.injEq] at g1
  obtain ⟨rfl, rfl, rfl⟩ := g1
  rw [key.proof, Res.ok.injEq] at g2
  subst g2
  have hpk : it.pk = ⟨it.pk.pKey, it.pk.rKey⟩ := rfl
  rw [← hpk, hb, Res.ok.injEq, Prod.mk.injEq, Prod.mk.injEq] at g3
  obtain ⟨rfl, rfl, rfl⟩ := g3
  rw [hsg, Res.ok.injEq, Prod.mk.injEq] at g4
  obtain ⟨rfl, rfl⟩ := g4
  rw [← hpk, hpr, Prod.mk.injEq] at g5
  obtain ⟨rfl, -⟩ := g5
  have hS : S' = S := by
    apply Units.ext
    rw [← hk'.s.2, ← hk.s.2]
  subst hS
  have hn0 := neZero_of hk.hn
  have hP := key.sizeP
  have hQ := key.sizeQ
  obtain ⟨a, rfl⟩ := Subgroup.mem_zpowers_iff.1 hAS
  refine ⟨hk, ?_, ⟨a, ?_, hcl⟩, ?_, ?_, ?_, ?_, hnd, fun a ha => (hval a ha).2.1, hattrs, ?_, hrev⟩
  · rw [show (2 : Nat) ^ 2048 = 2 ^ 1024 * 2 ^ 1024 from pow_add 2 1024 1024]
    exact Nat.mul_lt_mul'' hP hQ
  · rw [hA]; exact rep_val _
  · rw [hse]; exact he
  · rw [hsv]
    have := generateVPrimePrime_bounds hva.1 hva.2
    refine ⟨add_nonneg hvP.1 this.1, ?_⟩
    have h1 : (2 : Int) ^ 2128 ≤ 2 ^ 2724 := pow_le_pow_right₀ (by norm_num) (by norm_num)
    rw [show (2 : Int) ^ 2725 = 2 ^ 2724 * 2 from pow_succ 2 2724]
    have h2 := hvP.2
    have h3 := this.2
    generalize (2 : Int) ^ 2724 = X at *
    generalize (2 : Int) ^ 2128 = Y at *
    linarith
  · rw [hsm]
    exact ⟨getHashAsInt_nonneg _ _, getHashAsInt_lt hsha _⟩
  · intro k
    unfold attrValue
    cases hl : it.vals.lookup k with
    | none => exact ⟨le_refl _, pow_pos (by norm_num) _⟩
    | some v =>
      have := (hval (k, v) (mem_of_lookup hl)).2.2
      exact this
  · intro k hk
    rw [hasKey_iff_mem, hkn]
    obtain ⟨a, ha, rfl⟩ := List.mem_map.1 hk
    exact (hval a ha).1

/-- a holder's attributes as they can be issued and shown: distinct names covered by the key, no commitments, values of 256 bits -/
structure Showable (keys : List String) (it : Item F G1 G2 GT) : Prop where
  distinct : (it.vals.map (·.1)).Nodup
  values : ∀ a ∈ it.vals, a.1 ∈ keys ∧ a.2.isCommitment = false ∧ 0 ≤ a.2.value ∧ a.2.value < 2 ^ 256
  attrs : it.nonSchema ∪ it.schema = (it.vals.map (·.1)).toFinset
  revealed : it.req.revealed ⊆ it.schema

/-- Two holders with `k` credentials each, the `i`-th ones obtained from the same issuer, shown for the same requests with the same revealed values. -/
structure ObtainedView [DecidableEq GT] (pairing : G1 →ₗ[F] G2 →ₗ[F] GT) (sha : Bytes → Bytes) (isPrime : Int → Bool) (K : Finset String) (names : List String) {k : Nat}
    (its1 its2 : Fin k → Item F G1 G2 GT) (val1 val2 : String → Int) : Prop where
  obtained : ∀ i, ∃ (sk : PrimaryPrivKey) (kp : KeyProof) (key : MadeKey sha (its1 i).pk.pKey sk kp), Showable key.keys (its1 i) ∧ Showable key.keys (its2 i) ∧
    Obtained pairing sha isPrime (its1 i).pk sk kp (its1 i).vals (its1 i).sig ∧ Obtained pairing sha isPrime (its1 i).pk sk kp (its2 i).vals (its2 i).sig
  plain : ∀ i, (its1 i).Plain ∧ (its2 i).Plain
  shown : ∀ i, SameShown (its1 i) (its2 i)
  known : ∀ a ∈ names, a ∈ K
  attrs : ∀ i, (its1 i).nonSchema ∪ (its1 i).schema ⊆ K
  common : ∀ i, ∀ a ∈ names, attrValue (its1 i).vals a = val1 a ∧ attrValue (its2 i).vals a = val2 a
  small : ∀ a ∈ names, (0 ≤ val1 a ∧ val1 a < 2 ^ 256) ∧ 0 ≤ val2 a ∧ val2 a < 2 ^ 256

theorem ObtainedView.same [DecidableEq GT] {pairing : G1 →ₗ[F] G2 →ₗ[F] GT} {sha : Bytes → Bytes} (hsha : ∀ m, (sha m).length = 32) {isPrime : Int → Bool} {K : Finset String}
    {names : List String} {k : Nat} {its1 its2 : Fin k → Item F G1 G2 GT} {val1 val2 : String → Int} (h : ObtainedView pairing sha isPrime K names its1 its2 val1 val2) :
    SameView K names its1 its2 val1 val2 where
  issued i := by
    obtain ⟨sk, kp, key, s1, s2, o1, o2⟩ := h.obtained i
    obtain ⟨S, hS⟩ := obtained_issued pairing sha hsha isPrime (its1 i).pk sk kp key
    exact ⟨_, S, _, _, _, hS _ rfl o1 s1.distinct s1.values s1.attrs s1.revealed, hS _ (h.shown i).pk.symm o2 s2.distinct s2.values s2.attrs s2.revealed⟩
  plain := h.plain
  shown := h.shown
  known := h.known
  attrs := h.attrs
  common := h.common
  small := h.small

/-- **C190**, hiding from issuance to presentation: two holders who obtained their credentials from the same issuers by running the protocol, for any hidden values and any
randomness of the issuance, give presentations that no observer, not even the issuer, can tell apart but with probability `((k + 1) |K| + 9 k) / 2^79`. -/
theorem obtained_hiding [DecidableEq GT] (e : G1 →ₗ[F] G2 →ₗ[F] GT) (cv : Conv F G1 G2 GT) (mode : Overflow) (sha : Bytes → Bytes) (hsha : ∀ m, (sha m).length = 32)
    (isPrime : Int → Bool) (ord ordF : SetOrder) (names : List String) (K : Finset String) {k : Nat} (its1 its2 : Fin k → Item F G1 G2 GT) (val1 val2 : String → Int)
    (view : ObtainedView e sha isPrime K names its1 its2 val1 val2) (nonce : Int) (P : Res String (Proof F G1 G2) → Prop) :
    |prob (slotSize (K := K) (k := k)) (show' e cv mode sha ord ordF names its1 nonce) P - prob (slotSize (K := K) (k := k)) (show' e cv mode sha ord ordF names its2 nonce) P| ≤
      (((k + 1) * K.card + 9 * k : Nat) : ℚ) / 2 ^ 79 :=
  cl_hiding e cv mode sha hsha ord ordF names K its1 its2 val1 val2 (view.same hsha) nonce P

end

/-! ## The hypotheses are met -/

/-- a hash function with values of 32 bytes -/
def sha32 : Bytes → Bytes := fun m => List.replicate 31 0 ++ [UInt8.ofNat m.length]

theorem sha32_length (m : Bytes) : (sha32 m).length = 32 := by simp [sha32]

/-- the attributes of the example -/
def toyHolder (name : Int) : Map CredentialValue := [("name", .hidden name), ("age", .known 30)]

/-- an issuer's key with the primes 7 and 11; a holder with any name obtains a credential from it -/
theorem toy_obtained : ∃ (pk : PrimaryPubKey) (sk : PrimaryPrivKey) (kp : KeyProof) (key : MadeKey sha32 pk sk kp), key.keys = ["name", "age"] ∧
    ∀ name : Int, ∃ sig : CredSig (ZMod 101) (ZMod 101) (ZMod 101),
      Obtained Toy.toyE sha32 (fun _ => true) ⟨pk, none⟩ sk kp (toyHolder name) sig := by
  have run := fun name : Int => issuance_end_to_end (F := ZMod 101) Toy.toyE sha32 (fun _ => true) ["name", "age"] (by decide) 7 11 (by norm_num) (by norm_num) (by norm_num)
    (by norm_num) (by norm_num) 2 (by norm_num) (by decide) 3 (fun k => (k.length : Int)) 4 8 (fun _ => 9) none (toyHolder name) (toyHolder name) (by simp [toyHolder])
    (by simp [toyHolder]) (by simp [toyHolder]) (fun _ _ => Iff.rfl) 5 6 12 13 (fun _ => 14) (fun _ => 15) 16 "holder" 17 (2 ^ 596 + 1) 18
    (add_nonneg (pow_nonneg (by norm_num) _) (by norm_num)) rfl (by decide +kernel) none none none
  obtain ⟨pk, sk, md, hgen, kp, hkp, -⟩ := run 0
  refine ⟨pk, sk, kp, ⟨["name", "age"], by decide, 7, 11, by norm_num, by norm_num, by norm_num, by norm_num, by norm_num, by decide +kernel, by decide +kernel, 2, by norm_num,
    by decide, 3, fun k => (k.length : Int), 4, md, hgen, 8, fun _ => 9, hkp⟩, rfl, fun name => ?_⟩
  obtain ⟨pk', sk', md', hgen', kp', hkp', b, bf, bp, h1, sig0, sp, h2, sig, -, -, h3, -⟩ := run name
  rw [hgen, Res.ok.injEq, Prod.mk.injEq, Prod.mk.injEq] at hgen'
  obtain ⟨rfl, rfl, rfl⟩ := hgen'
  rw [hkp, Res.ok.injEq] at hkp'
  subst hkp'
  exact ⟨sig, ⟨toyHolder name, 5, 6, 12, 13, fun _ => 14, fun _ => 15, 16, "holder", 17, 2 ^ 596 + 1, 18, none, none, none, b, bf, bp, sig0, sp,
    ⟨by simp [toyHolder], fun _ _ => Iff.rfl⟩, by decide +kernel, by decide +kernel, by decide +kernel, h1, h2, h3⟩⟩

/-- a holder's credential shown for the revealed age -/
def toyItem (pk : PrimaryPubKey) (sig : CredSig (ZMod 101) (ZMod 101) (ZMod 101)) (name : Int) : Item (ZMod 101) (ZMod 101) (ZMod 101) (ZMod 101) :=
  { Toy77.item (ZMod 101) (ZMod 101) (ZMod 101) (ZMod 101) with
    pk := ⟨pk, none⟩, sig := sig, vals := toyHolder name, schema := {"name", "age"}, nonSchema := ∅, req := ⟨{"age"}, []⟩, reg := none, witness := none }

/-- **C190** is about something: two holders with different hidden names, one credential each, shown for the revealed age -/
theorem toy_obtained_view (n1 n2 : Int) (h1 : 0 ≤ n1 ∧ n1 < 2 ^ 256) (h2 : 0 ≤ n2 ∧ n2 < 2 ^ 256) :
    ∃ its1 its2 : Fin 1 → Item (ZMod 101) (ZMod 101) (ZMod 101) (ZMod 101), (its1 0).vals = toyHolder n1 ∧ (its2 0).vals = toyHolder n2 ∧
      (its1 0).req.revealed = {"age"} ∧ ObtainedView Toy.toyE sha32 (fun _ => true) {"name", "age"} [] its1 its2 (fun _ => 0) (fun _ => 0) := by
  obtain ⟨pk, sk, kp, key, hkeys, ho⟩ := toy_obtained
  obtain ⟨sig1, o1⟩ := ho n1
  obtain ⟨sig2, o2⟩ := ho n2
  have sh : ∀ (n : Int) (sig : CredSig (ZMod 101) (ZMod 101) (ZMod 101)), 0 ≤ n ∧ n < 2 ^ 256 → Showable key.keys (toyItem pk sig n) := by
    intro n sig hn
    rw [hkeys]
    refine ⟨by simp [toyItem, toyHolder], ?_, by simp [toyItem, toyHolder], by simp [toyItem]⟩
    intro a ha
    simp only [toyItem, toyHolder, List.mem_cons, List.not_mem_nil, or_false] at ha
    rcases ha with rfl | rfl
    · exact ⟨by simp, rfl, hn⟩
    · exact ⟨by simp, rfl, by decide +kernel⟩
  refine ⟨fun _ => toyItem pk sig1 n1, fun _ => toyItem pk sig2 n2, rfl, rfl, rfl, ⟨fun _ => ⟨sk, kp, key, sh n1 sig1 h1, sh n2 sig2 h2, o1, o2⟩, fun _ => ⟨⟨rfl, .inl rfl⟩, rfl, .inl rfl⟩,
    fun _ => ⟨rfl, rfl, rfl, rfl, ?_⟩, by simp, fun _ => by simp [toyItem], by simp, by simp⟩⟩
  intro k hk
  have : k = "age" := by simpa [toyItem] using hk
  subst this
  rfl

end Verif.CL
