import Verif.Props.StrongRSAGame
import Verif.Props.CLPrimary
import Mathlib.Data.ZMod.Units
import Mathlib.FieldTheory.Finite.Basic
/-!
# Primary credentials cannot be forged if strong RSA is hard (C204)

The issuer of the game is the model of the code: `newPrimaryKeys` makes the key, `blindedFactors` and `newPrimaryCredential` answer the
requests.  A forger sees the public key and the credentials it asks for, one after the other, and finally outputs a credential and
attribute values.  It wins if the credential passes the equation that holders check and its attribute values (with the credential
context) were never signed.
-/
set_option linter.unusedSectionVars false
set_option linter.unusedVariables false
set_option linter.unusedSimpArgs false
namespace Verif.CL.Forgery
open Verif Verif.BN Verif.CL Verif.Forking Verif.SRSA

/-! ## The game -/

/-- what a holder asks the issuer to sign: the credential context, the attribute values (the hidden ones are in the holder's blinded
secrets) and the number `v'` of the blinded secrets -/
structure Order where
  ctx : Int
  vals : Map CredentialValue
  vPrime : Int

/-- a forger: what it orders next and what it finally outputs, from the public key and the `(A, e, v'')` of the credentials so far -/
structure Forger where
  ask : PrimaryPubKey → List (Int × Int × Int) → Order
  out : PrimaryPubKey → List (Int × Int × Int) → PrimarySig × Map CredentialValue

/-- the issuance of one credential: prover.rs:400-473 for the blinded secrets and issuer.rs:1133-1170 for the signature; `va` is the
random number of `v''`, `e` the random prime -/
def issue (pk : PrimaryPubKey) (sk : PrimaryPrivKey) (r : Order) (va e : Int) : Res String PrimarySig := do
  let b ← blindedFactors pk r.vals r.vPrime
  let (sig, _) ← newPrimaryCredential (G1 := Unit) pk sk r.ctx r.vals va ⟨b.u, none, b.hidden, b.committed⟩ e
  pure sig

/-- the first `n` orders and the credentials issued for them -/
def session (F : Forger) (pk : PrimaryPubKey) (sk : PrimaryPrivKey) (va e : Nat → Int) : Nat → Res String (List (Order × PrimarySig))
  | 0 => .ok []
  | n + 1 => do
    let h ← session F pk sk va e n
    let r := F.ask pk (h.map fun x => (x.2.a, x.2.e, x.2.v))
    let sig ← issue pk sk r (va n) (e n)
    pure (h ++ [(r, sig)])

/-- the names of what is signed: the credential context (`none`) and the attributes of the key -/
abbrev Name (keys : List String) : Type := Option {k : String // k ∈ keys}

/-- the signed value of every name; an attribute without a known or hidden value counts as `0` -/
def valuesOf (keys : List String) (ctx : Int) (vals : Map CredentialValue) : Name keys → Int
  | none => ctx
  | some k => attrValue (signedAttrs vals) k.1

/-- a map from attributes of the key to values -/
def Proper (keys : List String) (vals : Map CredentialValue) : Prop := (vals.map (·.1)).Nodup ∧ ∀ x ∈ vals, x.1 ∈ keys

/-- the equation of prover.rs:704-749: the `q` recomputed from the values is `a^e` -/
def Accepted (pk : PrimaryPubKey) (sig : PrimarySig) (vals : Map CredentialValue) : Prop :=
  ∃ y, recomputeQ pk sig vals = .ok y ∧ modExp sig.a sig.e pk.n = .ok y

/-- A forgery: accepted, with a prime exponent in the range, and for values that were never signed.  All values, signed and forged,
are numbers below `emin`. -/
def Forged (keys : List String) (emin emax : Nat) (pk : PrimaryPubKey) (orders : List Order) (sig : PrimarySig)
    (vals : Map CredentialValue) : Prop :=
  Accepted pk sig vals ∧ Proper keys vals ∧ sig.e.toNat.Prime ∧ (emin : Int) ≤ sig.e ∧ sig.e ≤ emax ∧
  (∀ n, 0 ≤ valuesOf keys sig.m2 vals n ∧ valuesOf keys sig.m2 vals n < emin) ∧
  ∀ r ∈ orders, (∀ n, 0 ≤ valuesOf keys r.ctx r.vals n ∧ valuesOf keys r.ctx r.vals n < emin) ∧
    valuesOf keys sig.m2 vals ≠ valuesOf keys r.ctx r.vals

/-- The numbers of the game for the safe primes `P`, `Q`.  Exponents of the key are drawn from `2, …, p'q' - 2` (`gen_x`, helpers.rs:226-237)
and `v''` from `2^2723, …, 2^2724 - 1` (`generate_v_prime_prime`, whose top bit is always set). -/
def setup (P Q : Nat) (e : Nat → Nat) (q emin emax : Nat) : Setup where
  N := P / 2 * (Q / 2)
  c := 2
  L := P / 2 * (Q / 2) - 3
  T := 2 ^ 2723
  base := 2 ^ 2723
  e := e
  q := q
  emin := emin
  emax := emax

/-- exponents by attribute name -/
def named {keys : List String} (x : Name keys → Int) (k : String) : Int := if h : k ∈ keys then x (some ⟨k, h⟩) else 0

/-- the issuer draws `ω`, makes a key and answers the forger, who wins -/
def Wins (P Q : Nat) (keys : List String) (e : Nat → Nat) (q emin emax : Nat) (F : Forger)
    (ω : Coins (ZMod (P * Q))ˣ (Name keys) (setup P Q e q emin emax)) : Prop :=
  ∃ pk sk md h,
    newPrimaryKeys false keys P Q (val ω.1) (2 + ((ω.2.1 none : Nat) : Int)) (named fun n => 2 + ((ω.2.1 (some n) : Nat) : Int))
      (2 + ((ω.2.1 (some none) : Nat) : Int)) = .ok (pk, sk, md) ∧
    session F pk sk (fun i => (ext ω.2.2 i : Nat)) (fun i => (e i : Nat)) q = .ok h ∧
    Forged keys emin emax pk (h.map (·.1)) (F.out pk (h.map fun x => (x.2.a, x.2.e, x.2.v))).1 (F.out pk (h.map fun x => (x.2.a, x.2.e, x.2.v))).2

/-! ## The forger as a player of the abstract game -/

variable {P Q : Nat} {keys : List String}

/-- group elements by attribute name -/
def namedR (pub : Pub (ZMod (P * Q))ˣ (Name keys)) (k : String) : (ZMod (P * Q))ˣ := if h : k ∈ keys then pub.R (some ⟨k, h⟩) else 1

/-- the public key as numbers -/
def toPk (pub : Pub (ZMod (P * Q))ˣ (Name keys)) : PrimaryPubKey :=
  { n := (P : Int) * Q, s := val pub.S, rctxt := val (pub.R none), r := keys.map (fun k => (k, val (namedR pub k))), z := val pub.Z }

/-- a number as a group element -/
noncomputable def toUnit (n : Nat) (a : Int) : (ZMod n)ˣ := by
  classical exact if h : IsUnit ((a : Int) : ZMod n) then h.unit else 1

def enc (σ : Sig (ZMod (P * Q))ˣ) : Int × Int × Int := (val σ.A, (σ.e : Int), σ.v)

/-- the forger plays the abstract game: numbers are sent to group elements and back, nothing secret is used -/
noncomputable def player (P Q : Nat) (keys : List String) (F : Forger) : SRSA.Forger (ZMod (P * Q))ˣ (Name keys) where
  ask pub l := ⟨valuesOf keys (F.ask (toPk pub) (l.map enc)).ctx (F.ask (toPk pub) (l.map enc)).vals, (F.ask (toPk pub) (l.map enc)).vPrime⟩
  out pub l := (⟨toUnit (P * Q) (F.out (toPk pub) (l.map enc)).1.a, (F.out (toPk pub) (l.map enc)).1.e.toNat, (F.out (toPk pub) (l.map enc)).1.v⟩,
    valuesOf keys (F.out (toPk pub) (l.map enc)).1.m2 (F.out (toPk pub) (l.map enc)).2)

/-! ## The code plays the abstract issuer -/

theorem toUnit_spec {n : Nat} {a : Int} {A : (ZMod n)ˣ} (h : ((a : Int) : ZMod n) = A) : toUnit n a = A := by
  have hu : IsUnit ((a : Int) : ZMod n) := h ▸ A.isUnit
  unfold toUnit
  rw [dif_pos hu]
  apply Units.ext
  rw [IsUnit.unit_spec, h]

theorem keyUnits (hn : 1 < P * Q) (pub : Pub (ZMod (P * Q))ˣ (Name keys)) :
    KeyUnits (toPk pub) (P * Q) pub.S pub.Z (pub.R none) (namedR pub) := by
  have hn0 := neZero_of hn
  refine ⟨hn, by simp [toPk], rep_val _, rep_val _, rep_val _, ?_⟩
  intro k x hx
  have hm := mem_of_lookup hx
  unfold toPk at hm
  rw [List.mem_map] at hm
  obtain ⟨k', _, hk'⟩ := hm
  cases hk'
  exact rep_val _

theorem has_key (pub : Pub (ZMod (P * Q))ˣ (Name keys)) {k : String} (h : k ∈ keys) : (toPk pub).r.hasKey k = true := by
  rw [hasKey_iff_mem]
  unfold toPk
  simp [h]

/-- products over the attributes of the key -/
theorem attr_prod (f : {k : String // k ∈ keys} → (ZMod (P * Q))ˣ) (R : String → (ZMod (P * Q))ˣ) (hR : ∀ k : {k : String // k ∈ keys}, R k.1 = f k)
    (l : List (String × CredentialValue)) (hnd : (l.map (·.1)).Nodup) (hin : ∀ x ∈ l, x.1 ∈ keys) :
    attrProd R l = ∏ k : {k : String // k ∈ keys}, f k ^ attrValue l k.1 := by
  induction l with
  | nil => simp [attrProd, attrValue]
  | cons x l ih =>
    rw [List.map_cons, List.nodup_cons] at hnd
    have ih := ih hnd.2 (fun y hy => hin y (List.mem_cons_of_mem _ hy))
    have hx := hin x (List.mem_cons_self ..)
    have h0 : attrValue l x.1 = 0 := by
      unfold attrValue
      have : l.lookup x.1 = none := by
        rw [List.lookup_eq_none_iff]
        intro p hp
        rw [bne_iff_ne]
        intro h
        exact hnd.1 (List.mem_map.2 ⟨p, hp, h.symm⟩)
      rw [this]; rfl
    have hstep : ∀ k : {k : String // k ∈ keys}, f k ^ attrValue (x :: l) k.1 = (if k = ⟨x.1, hx⟩ then f k ^ x.2.value else 1) * f k ^ attrValue l k.1 := by
      intro k
      by_cases hk : k = ⟨x.1, hx⟩
      · subst hk
        rw [if_pos rfl]
        simp only
        rw [h0, zpow_zero, mul_one]
        congr 1
        unfold attrValue
        rw [List.lookup_cons, beq_self_eq_true]
        rfl
      · rw [if_neg hk, one_mul]
        congr 1
        unfold attrValue
        rw [List.lookup_cons, beq_eq_false_iff_ne.2 (fun h => hk (Subtype.ext h))]
    simp only [hstep]
    rw [Finset.prod_mul_distrib, ← ih, Finset.prod_ite_eq' Finset.univ, if_pos (Finset.mem_univ _), ← hR]
    rfl

theorem signed_nodup {vals : Map CredentialValue} (h : Proper keys vals) :
    ((signedAttrs vals).map (·.1)).Nodup ∧ ∀ x ∈ signedAttrs vals, x.1 ∈ keys := by
  unfold signedAttrs
  exact ⟨(List.filter_sublist.map _).nodup h.1, fun x hx => h.2 x (List.mem_filter.1 hx).1⟩

/-- the values of all names -/
theorem names_prod (pub : Pub (ZMod (P * Q))ˣ (Name keys)) (ctx : Int) (vals : Map CredentialValue) (h : Proper keys vals) :
    ∏ j, pub.R j ^ valuesOf keys ctx vals j = pub.R none ^ ctx * attrProd (namedR pub) (signedAttrs vals) := by
  rw [Fintype.prod_option, attr_prod (fun k => pub.R (some k)) (namedR pub) (fun k => by unfold namedR; rw [dif_pos k.2]) _ (signed_nodup h).1 (signed_nodup h).2]
  rfl

/-- key generation -/
theorem keys_made (hP : P.Prime) (hQ : Q.Prime) (s : (ZMod (P * Q))ˣ) (x : Option (Name keys) → Int) :
    ∃ md, newPrimaryKeys false keys P Q (val s) (x none) (named fun n => x (some n)) (x (some none)) =
      .ok (toPk (pubOf (s ^ 2) x), ⟨((P / 2 : Nat) : Int), ((Q / 2 : Nat) : Int)⟩, md) := by
  have hn : 1 < P * Q := by nlinarith [hP.two_le, hQ.two_le]
  have hn0 := neZero_of hn
  have hs : modulus (val s * val s) ((P * Q : Nat) : Int) = .ok (val (s ^ 2)) :=
    rep_modulus (by rw [Int.cast_mul, cast_val, ← Units.val_mul, pow_two])
  have hs' : modulus (val s * val s) ((P : Int) * (Q : Int)) = .ok (val (s ^ 2)) := by
    rw [← hs]; push_cast; rfl
  have hexp : ∀ k : Int, modExp (val (s ^ 2)) k ((P : Int) * (Q : Int)) = .ok (val ((s ^ 2) ^ k)) := by
    intro k
    have := (rep_val (s ^ 2)).modExp hn k
    rw [← this]; push_cast; rfl
  unfold newPrimaryKeys
  rw [if_neg (by simp)]
  simp only []
  rw [hs', Res.ok_bind, mapM_ok _ (fun k => (k, val ((s ^ 2) ^ named (fun n => x (some n)) k))) _ (by intro x _; rw [hexp]; rfl), Res.ok_bind,
    hexp, Res.ok_bind, hexp, Res.ok_bind]
  refine ⟨{ xz := x none, xr := List.map (fun k => (k, named (fun n => x (some n)) k)) keys }, ?_⟩
  unfold toPk rshift1
  have hr : ∀ k ∈ keys, (k, val ((s ^ 2) ^ named (fun n => x (some n)) k)) = (k, val (namedR (pubOf (s ^ 2) x) k)) := by
    intro k hk
    unfold named namedR
    rw [dif_pos hk, dif_pos hk]
    rfl
  rw [List.map_congr_left hr]
  push_cast
  rfl

theorem or_pow (k t : Nat) (ht : t < 2 ^ k) : ((t ||| 2 ^ k : Nat) : Int) = 2 ^ k + (t : Int) := by
  have h2 := Nat.two_pow_add_eq_or_of_lt ht 1
  rw [mul_one] at h2
  rw [Nat.or_comm, ← h2]
  push_cast
  rfl

/-- the number `v''` -/
theorem v_of (t : Nat) (ht : t < 2 ^ 2723) : generateVPrimePrime (t : Int) = 2 ^ 2723 + (t : Int) := by
  have h : generateVPrimePrime (t : Int) = ((t ||| 2 ^ 2723 : Nat) : Int) := by
    have := bitwise_or_spec t (2 ^ 2723)
    rw [← this]; unfold generateVPrimePrime LARGE_VPRIME_PRIME; rw [Nat.cast_pow]; rfl
  rw [h, or_pow 2723 t ht]

/-- a credential issued by the code is the abstract issuer's -/
theorem issued (hn : 1 < P * Q) {N : Nat} (hN : ((P / 2 : Nat) : Int) * ((Q / 2 : Nat) : Int) = N) (hN1 : 1 < N)
    (hord : ∀ g : (ZMod (P * Q))ˣ, (g ^ 2) ^ N = 1) (s : (ZMod (P * Q))ˣ) (x : Option (Name keys) → Int) (e : Nat → Nat) (t : Nat → Nat) (i : Nat)
    (hc : Nat.Coprime (e i) N) (ht : t i < 2 ^ 2723) (r : Order) (hr : Proper keys r.vals) :
    ∃ sig, issue (toPk (pubOf (s ^ 2) x)) ⟨((P / 2 : Nat) : Int), ((Q / 2 : Nat) : Int)⟩ r (t i : Nat) (e i : Nat) = .ok sig ∧
      (sig.a, sig.e, sig.v) = enc (real N e (2 ^ 2723) t (pubOf (s ^ 2) x) i ⟨valuesOf keys r.ctx r.vals, r.vPrime⟩) := by
  have hn0 := neZero_of hn
  have hk := keyUnits hn (pubOf (s ^ 2) x)
  unfold issue
  rw [blindedFactors_units hk r.vals hr.1 (fun y hy _ => has_key _ (hr.2 y hy)) r.vPrime, Res.ok_bind]
  unfold newPrimaryCredential
  simp only []
  obtain ⟨d, hd, hd0, _, hd1⟩ := (inverse_spec (e i : Nat) N (by omega) (one_lt_abs hN1)).1 (by rw [Int.gcd_natCast_natCast]; exact hc)
  have hsign := signPrimary_units (G1 := Unit) hk ⟨((P / 2 : Nat) : Int), ((Q / 2 : Nat) : Int)⟩ N hN r.ctx r.vals (fun y hy _ => has_key _ (hr.2 y hy))
    (generateVPrimePrime (t i : Nat)) ⟨val ((s ^ 2) ^ r.vPrime * hiddenProd (namedR (pubOf (s ^ 2) x)) (attrValue r.vals) (hiddenNames r.vals)), none, hiddenNames r.vals,
      committedList (s ^ 2) ((pubOf (s ^ 2) x).Z) r.vals⟩ _ rfl (e i : Nat) d hd
  simp only [] at hsign
  have hS : (pubOf (s ^ 2) x).S = s ^ 2 := rfl
  rw [hS] at hsign ⊢
  rw [hsign, Res.ok_bind, Res.pure_eq, Res.ok_bind]
  refine ⟨_, rfl, ?_⟩
  unfold enc real
  simp only
  rw [v_of _ ht]
  have hQ : (pubOf (s ^ 2) x).Z / ((s ^ 2) ^ (2 ^ 2723 + (t i : Int)) * ((s ^ 2) ^ r.vPrime * hiddenProd (namedR (pubOf (s ^ 2) x)) (attrValue r.vals) (hiddenNames r.vals)) *
        (pubOf (s ^ 2) x).R none ^ r.ctx * attrProd (namedR (pubOf (s ^ 2) x)) (r.vals.filter (fun e => e.2.isKnown))) =
      (pubOf (s ^ 2) x).Z / ((pubOf (s ^ 2) x).S ^ (2 ^ 2723 + (t i : Int) + r.vPrime) * ∏ j, (pubOf (s ^ 2) x).R j ^ valuesOf keys r.ctx r.vals j) := by
    rw [names_prod _ _ _ hr, signed_split _ hr.1, hS, zpow_add _ (2 ^ 2723 + (t i : Int))]
    congr 1
    unfold knownAttrs
    simp only [mul_comm, mul_left_comm, mul_assoc]
  rw [hQ, quotient_eq]
  have hone : ((s ^ 2) ^ expo x (valuesOf keys r.ctx r.vals) (2 ^ 2723 + (t i : Int) + r.vPrime)) ^ N = 1 := pow_sq hord s _
  rw [root_eq N (e i) hc (b := ((s ^ 2) ^ expo x (valuesOf keys r.ctx r.vals) (2 ^ 2723 + (t i : Int) + r.vPrime)) ^ d)]
  · rw [← zpow_natCast, ← zpow_mul, mul_comm d, zpow_mul, zpow_natCast, hone, one_zpow]
  · rw [← zpow_natCast, ← zpow_mul, zpow_modEq hone (a := d * (e i : Nat)) (b := 1) (by rw [mul_comm]; exact hd1), zpow_one]

/-- an accepted credential satisfies the equation -/
theorem accepted_valid (hn : 1 < P * Q) (pub : Pub (ZMod (P * Q))ˣ (Name keys)) (sig : PrimarySig) (vals : Map CredentialValue)
    (hv : Proper keys vals) (he : 0 < sig.e) (h : Accepted (toPk pub) sig vals) :
    Valid pub ⟨toUnit (P * Q) sig.a, sig.e.toNat, sig.v⟩ (valuesOf keys sig.m2 vals) := by
  have hn0 := neZero_of hn
  have hk := keyUnits hn pub
  obtain ⟨y, hy, hy'⟩ := h
  rw [recomputeQ_units hk sig vals (fun x hx => has_key _ ((signed_nodup hv).2 x hx))] at hy
  cases hy
  obtain ⟨r, hr, -, -, hr3⟩ := mod_exp_nonneg_spec sig.a sig.e ((P * Q : Nat) : Int) (by omega) (by omega)
  rw [hk.n_eq, hr] at hy'
  cases hy'
  have h5 := (ZMod.intCast_eq_intCast_iff _ _ (P * Q)).2 hr3
  rw [cast_val, Int.cast_pow] at h5
  have hunit : IsUnit ((sig.a : Int) : ZMod (P * Q)) := by
    rw [← isUnit_pow_iff (n := sig.e.toNat) (by omega), ← h5]
    exact Units.isUnit _
  obtain ⟨A, hA⟩ := hunit
  rw [← hA, ← Units.val_pow_eq_pow_val] at h5
  have h6 := Units.ext h5
  unfold Valid
  simp only
  rw [toUnit_spec hA.symm, ← h6, names_prod _ _ _ hv]
  rw [mul_assoc (_ / _), mul_assoc (pub.S ^ sig.v), div_mul_cancel]

/-- the code's session is the abstract one -/
theorem session_eq (hn : 1 < P * Q) {N : Nat} (hN : ((P / 2 : Nat) : Int) * ((Q / 2 : Nat) : Int) = N) (hN1 : 1 < N)
    (hord : ∀ g : (ZMod (P * Q))ˣ, (g ^ 2) ^ N = 1) (s : (ZMod (P * Q))ˣ) (x : Option (Name keys) → Int) (e t : Nat → Nat) (q : Nat)
    (hc : ∀ i < q, Nat.Coprime (e i) N) (ht : ∀ i < q, t i < 2 ^ 2723) (F : Forger) (hF : ∀ pk l, Proper keys (F.ask pk l).vals) :
    ∀ n ≤ q, ∃ h, session F (toPk (pubOf (s ^ 2) x)) ⟨((P / 2 : Nat) : Int), ((Q / 2 : Nat) : Int)⟩ (fun i => (t i : Nat)) (fun i => (e i : Nat)) n = .ok h ∧
      (h.map fun y => (y.2.a, y.2.e, y.2.v)) = (hist (player P Q keys F) (pubOf (s ^ 2) x) (real N e (2 ^ 2723) t (pubOf (s ^ 2) x)) n).map enc ∧
      ∀ r : Order, r ∈ h.map (·.1) ↔ ∃ i < n, r = F.ask (toPk (pubOf (s ^ 2) x))
        ((hist (player P Q keys F) (pubOf (s ^ 2) x) (real N e (2 ^ 2723) t (pubOf (s ^ 2) x)) i).map enc) := by
  intro n
  induction n with
  | zero => intro _; exact ⟨[], rfl, rfl, by simp⟩
  | succ n ih =>
    intro hnq
    obtain ⟨h, h1, h2, h3⟩ := ih (by omega)
    set r := F.ask (toPk (pubOf (s ^ 2) x)) ((hist (player P Q keys F) (pubOf (s ^ 2) x) (real N e (2 ^ 2723) t (pubOf (s ^ 2) x)) n).map enc) with hr
    obtain ⟨sig, hs1, hs2⟩ := issued hn hN hN1 hord s x e t n (hc n (by omega)) (ht n (by omega)) r (hF _ _)
    refine ⟨h ++ [(r, sig)], ?_, ?_, ?_⟩
    · unfold session
      rw [h1, Res.ok_bind]
      simp only
      rw [h2, ← hr, hs1]
      rfl
    · have hh : hist (player P Q keys F) (pubOf (s ^ 2) x) (real N e (2 ^ 2723) t (pubOf (s ^ 2) x)) (n + 1) =
          hist (player P Q keys F) (pubOf (s ^ 2) x) (real N e (2 ^ 2723) t (pubOf (s ^ 2) x)) n ++
            [real N e (2 ^ 2723) t (pubOf (s ^ 2) x) n ⟨valuesOf keys r.ctx r.vals, r.vPrime⟩] := rfl
      rw [List.map_append, h2, hh, List.map_append, List.map_singleton, List.map_singleton]
      simp only
      rw [hs2]
    · intro r'
      rw [List.map_append, List.mem_append, h3]
      simp only [List.map_cons, List.map_nil, List.mem_singleton]
      constructor
      · rintro (⟨i, hi, rfl⟩ | rfl)
        · exact ⟨i, by omega, rfl⟩
        · exact ⟨n, by omega, hr⟩
      · rintro ⟨i, hi, rfl⟩
        rcases Nat.lt_succ_iff_lt_or_eq.1 hi with h | rfl
        · exact Or.inl ⟨i, h, rfl⟩
        · exact Or.inr rfl

/-- What is assumed of the numbers: `P` and `Q` are different safe primes whose halves are larger than all exponents of credentials,
the issued exponents are different primes of the range, and the bound `B` of the reduction is at least `K` times `(P/2)(Q/2)`. -/
structure Params (P Q : Nat) (e : Nat → Nat) (q emin emax B K : Nat) : Prop where
  hP : P.Prime
  hQ : Q.Prime
  hP' : (P / 2).Prime
  hQ' : (Q / 2).Prime
  hPQ : P ≠ Q
  hPe : emax < P / 2
  hQe : emax < Q / 2
  emin2 : 2 < emin
  range : emin ≤ emax
  prime : ∀ i < q, (e i).Prime
  lower : ∀ i < q, emin ≤ e i
  upper : ∀ i < q, e i ≤ emax
  distinct : ∀ i < q, ∀ j < q, e i = e j → i = j
  small : emax ≤ 2 ^ 2723
  large : emax ≤ K
  bound : P / 2 * (Q / 2) * K ≤ B

theorem Params.ok [NeZero (P * Q)] {e : Nat → Nat} {q emin emax B K : Nat} (h : Params P Q e q emin emax B K) :
    (setup P Q e q emin emax).Ok (ZMod (P * Q))ˣ B K := by
  have hmin := h.emin2
  have hr := h.range
  have hPe := h.hPe
  have hQe := h.hQe
  have hP2 : P ≠ 2 := by intro hc; subst hc; omega
  have hQ2 : Q ≠ 2 := by intro hc; subst hc; omega
  have hN : 3 * 3 ≤ P / 2 * (Q / 2) := Nat.mul_le_mul (by omega) (by omega)
  refine ⟨fun g => ?_, ?_, h.bound, h.large, h.small, hmin, hr, ?_, h.prime, h.lower, h.upper, h.distinct, ?_⟩
  · rw [pow_two]; exact square_order P Q h.hP h.hQ hP2 hQ2 h.hPQ g
  · change 2 + (P / 2 * (Q / 2) - 3) ≤ P / 2 * (Q / 2)
    omega
  · change 0 < P / 2 * (Q / 2) - 3
    omega
  · intro p hp hlo hhi
    have hlo : emin ≤ p := hlo
    have hhi : p ≤ emax := hhi
    have hcP : Nat.Coprime p (P / 2) := (Nat.coprime_primes hp h.hP').2 (by omega)
    have hcQ : Nat.Coprime p (Q / 2) := (Nat.coprime_primes hp h.hQ').2 (by omega)
    have hc2 : Nat.Coprime p 2 := (Nat.coprime_primes hp Nat.prime_two).2 (by omega)
    refine ⟨Nat.Coprime.mul_right hcP hcQ, ?_⟩
    rw [ZMod.card_units_eq_totient, Nat.totient_mul ((Nat.coprime_primes h.hP h.hQ).2 h.hPQ), Nat.totient_prime h.hP, Nat.totient_prime h.hQ]
    have hPo : P - 1 = 2 * (P / 2) := by
      rcases h.hP.eq_two_or_odd with h | h <;> omega
    have hQo : Q - 1 = 2 * (Q / 2) := by
      rcases h.hQ.eq_two_or_odd with h | h <;> omega
    rw [hPo, hQo]
    exact Nat.Coprime.mul_right (Nat.Coprime.mul_right hc2 hcP) (Nat.Coprime.mul_right hc2 hcQ)

/-- a forgery against the code is a forgery in the abstract game -/
theorem wins_abstract [NeZero (P * Q)] {e : Nat → Nat} {q emin emax B K : Nat} (h : Params P Q e q emin emax B K) (F : Forger)
    (hF : ∀ pk l, Proper keys (F.ask pk l).vals) (ω : Coins (ZMod (P * Q))ˣ (Name keys) (setup P Q e q emin emax))
    (hw : Wins P Q keys e q emin emax F ω) : (setup P Q e q emin emax).Win (player P Q keys F) ω := by
  have ok := h.ok
  have hn : 1 < P * Q := by nlinarith [h.hP.two_le, h.hQ.two_le]
  have hmin := h.emin2
  have hr := h.range
  have hPe := h.hPe
  have hQe := h.hQe
  have hN1 : 1 < P / 2 * (Q / 2) := by
    have : 3 * 3 ≤ P / 2 * (Q / 2) := Nat.mul_le_mul (by omega) (by omega)
    omega
  obtain ⟨s, a, t⟩ := ω
  obtain ⟨pk, sk, md, hh, hkeys, hsess, hforged⟩ := hw
  set x : Option (Name keys) → Int := fun i => 2 + ((a i : Nat) : Int) with hx
  obtain ⟨md', hk⟩ := keys_made (keys := keys) h.hP h.hQ s x
  have hkeys : newPrimaryKeys false keys P Q (val s) (x none) (named fun n => x (some n)) (x (some none)) = .ok (pk, sk, md) := hkeys
  rw [hk] at hkeys
  simp only [Res.ok.injEq, Prod.mk.injEq] at hkeys
  obtain ⟨rfl, rfl, -⟩ := hkeys
  have ht : ∀ i < q, ext t i < 2 ^ 2723 := by
    intro i hi
    have := ext_at t ⟨i, hi⟩
    exact lt_of_eq_of_lt this (t ⟨i, hi⟩).2
  obtain ⟨hh', hs', hm, ho⟩ := session_eq (keys := keys) hn (N := P / 2 * (Q / 2)) (by push_cast; rfl) hN1 ok.order s x e (ext t) q
    (fun i hi => (ok.free _ (h.prime i hi) (h.lower i hi) (h.upper i hi)).1) ht F hF q le_rfl
  have hsess : session F (toPk (pubOf (s ^ 2) x)) ⟨((P / 2 : Nat) : Int), ((Q / 2 : Nat) : Int)⟩ (fun i => (ext t i : Nat)) (fun i => (e i : Nat)) q = .ok hh := hsess
  rw [hs'] at hsess
  cases hsess
  have hpub : (setup P Q e q emin emax).pub s a = pubOf (s ^ 2) x := rfl
  have hiss : (setup P Q e q emin emax).issuer ((s, a, t) : Coins (ZMod (P * Q))ˣ (Name keys) (setup P Q e q emin emax)) =
      real (P / 2 * (Q / 2)) e (2 ^ 2723) (ext t) (pubOf (s ^ 2) x) := rfl
  unfold Setup.Win
  rw [hiss]
  change SRSA.Wins emin emax q (player P Q keys F) (pubOf (s ^ 2) x) _
  rw [hm] at hforged
  obtain ⟨hacc, hprop, hp, hlo, hhi, hval, hord⟩ := hforged
  refine ⟨accepted_valid hn _ _ _ hprop (by omega) hacc, hp, ?_, ?_, hval, ?_⟩
  · have : emin ≤ (F.out (toPk (pubOf (s ^ 2) x)) ((hist (player P Q keys F) (pubOf (s ^ 2) x) (real (P / 2 * (Q / 2)) e (2 ^ 2723) (ext t) (pubOf (s ^ 2) x)) q).map enc)).1.e.toNat := by omega
    exact this
  · have : (F.out (toPk (pubOf (s ^ 2) x)) ((hist (player P Q keys F) (pubOf (s ^ 2) x) (real (P / 2 * (Q / 2)) e (2 ^ 2723) (ext t) (pubOf (s ^ 2) x)) q).map enc)).1.e.toNat ≤ emax := by omega
    exact this
  · intro i hi
    exact hord _ ((ho _).2 ⟨i, hi, rfl⟩)

/-- The reduction for forgeries with an exponent the issuer never used: draw exponents below `B` and numbers `t`, play the issuer with
`S = (u^2)^(e_0 e_1 …)`, and combine the forgery with `u`.  Only public numbers are used. -/
def RootNew (P Q : Nat) (keys : List String) (e : Nat → Nat) (q B : Nat) (F : Forger)
    (ω : (ZMod (P * Q))ˣ × (Option (Name keys) → Fin B) × (Fin q → Fin (2 ^ 2723))) : Prop :=
  Solved ω.1 (solver (Finset.range q) e (2 ^ 2723) q (player P Q keys F) ω.1 (fun i => ((ω.2.1 i : Nat) : Int)) (ext ω.2.2) 0)

/-- The reduction for forgeries with the exponent of order `j`: `S = (u^2)^(∏ of the other exponents)`, and `v''` of order `j` is
chosen so that its root can be computed. -/
def RootOld (P Q : Nat) (keys : List String) (e : Nat → Nat) (q B : Nat) (F : Forger) (j : Nat)
    (ω : ((ZMod (P * Q))ˣ × (Option (Name keys) → Fin B) × (Fin q → Fin (2 ^ 2723))) × Fin (2 ^ 2723 / e j)) : Prop :=
  Solved ω.1.1 (solver ((Finset.range q).erase j) e (2 ^ 2723) q (player P Q keys F) ω.1.1 (fun i => ((ω.1.2.1 i : Nat) : Int)) (ext ω.1.2.2) ω.2)

/-- **C204** A forger of credentials takes roots.  Let a forger win against the issuer with probability `ε`, after `q` credentials.
Then on a random element `u` modulo `P Q`, the two kinds of runs of the reduction find `w` and `f > 1` with `w^f = u` with probabilities
that add up to at least `(K ((P/2)(Q/2) - 3) / B)^(number of exponents) * ((1 - emax / K - 4 / emin) ε - q emax / 2^2723)`. -/
theorem credentials_unforgeable [NeZero (P * Q)] {e : Nat → Nat} {q emin emax B K : Nat} (h : Params P Q e q emin emax B K)
    (hkeys : keys.Nodup) (F : Forger) (hF : ∀ pk l, Proper keys (F.ask pk l).vals) :
    ((K : ℚ) * ((P / 2 * (Q / 2) - 3 : Nat) : ℚ) / B) ^ (keys.length + 2) *
        ((1 - emax / K - 4 / emin) * pr (Wins P Q keys e q emin emax F) - q * (emax / ((2 ^ 2723 : Nat) : ℚ))) ≤
      pr (RootNew P Q keys e q B F) + ∑ j ∈ Finset.range q, pr (RootOld P Q keys e q B F j) := by
  have ok := h.ok
  have hcard : Fintype.card (Name keys) + 1 = keys.length + 2 := by
    have : Fintype.card {k : String // k ∈ keys} = keys.toFinset.card := by
      rw [← Fintype.card_coe]
      exact Fintype.card_congr (Equiv.subtypeEquivRight fun k => by rw [List.mem_toFinset])
    rw [Fintype.card_option, this, List.toFinset_card_of_nodup hkeys]
  have key := forgery_takes_roots ok (player P Q keys F)
  rw [hcard] at key
  have hmono : pr (Wins P Q keys e q emin emax F) ≤ pr (fun ω => (setup P Q e q emin emax).Win (player P Q keys F) ω) :=
    pr_mono fun ω hω => wins_abstract h F hF ω hω
  have h1 := pr_nonneg (Wins P Q keys e q emin emax F)
  obtain ⟨β, hβ⟩ : ∃ β : ℚ, β = ((K : ℚ) * ((P / 2 * (Q / 2) - 3 : Nat) : ℚ) / B) ^ (keys.length + 2) := ⟨_, rfl⟩
  have hβ0 : 0 ≤ β := by rw [hβ]; positivity
  have hq0 : 0 ≤ (q : ℚ) * (emax / ((2 ^ 2723 : Nat) : ℚ)) := mul_nonneg (Nat.cast_nonneg _) (div_nonneg (Nat.cast_nonneg _) (Nat.cast_nonneg _))
  rw [← hβ]
  rcases le_or_gt 0 (1 - (emax : ℚ) / K - 4 / emin) with hκ | hκ
  · refine le_trans ?_ key
    change _ ≤ ((K : ℚ) * ((P / 2 * (Q / 2) - 3 : Nat) : ℚ) / B) ^ (keys.length + 2) *
      ((1 - (emax : ℚ) / K - 4 / emin) * pr (fun ω => (setup P Q e q emin emax).Win (player P Q keys F) ω) - q * (emax / ((2 ^ 2723 : Nat) : ℚ)))
    rw [← hβ]
    refine mul_le_mul_of_nonneg_left ?_ hβ0
    exact sub_le_sub_right (mul_le_mul_of_nonneg_left hmono hκ) _
  · have h2 := mul_nonpos_of_nonpos_of_nonneg hκ.le h1
    have h3 : (1 - (emax : ℚ) / K - 4 / emin) * pr (Wins P Q keys e q emin emax F) - q * (emax / ((2 ^ 2723 : Nat) : ℚ)) ≤ 0 := by linarith
    have h4 := mul_nonpos_of_nonneg_of_nonpos hβ0 h3
    have h5 := pr_nonneg (RootNew P Q keys e q B F)
    have h6 : 0 ≤ ∑ j ∈ Finset.range q, pr (RootOld P Q keys e q B F j) := Finset.sum_nonneg fun j _ => pr_nonneg _
    linarith

/-! ## A forger that wins: the issuer itself -/

/-- orders the attribute value 1 in the context 0 and signs it in the context 1 with the private key -/
def insider (sk : PrimaryPrivKey) (p : Nat) (k : String) : Forger where
  ask _ _ := ⟨0, [(k, .known 1)], 0⟩
  out pk _ :=
    match issue pk sk ⟨1, [(k, .known 1)], 0⟩ (0 : Nat) (p : Nat) with
    | .ok sig => ({ sig with m2 := 1 }, [(k, .known 1)])
    | _ => (⟨0, 0, 0, 0⟩, [])

theorem proper_one {k : String} (hk : k ∈ keys) : Proper keys [(k, .known 1)] := ⟨by simp, by simp [hk]⟩

theorem small_values {emin : Nat} (h : 2 < emin) (k : String) (c : Int) (hc : c = 0 ∨ c = 1) (n : Name keys) :
    0 ≤ valuesOf keys c [(k, .known 1)] n ∧ valuesOf keys c [(k, .known 1)] n < emin := by
  have h' : (2 : Int) < emin := by exact_mod_cast h
  cases n with
  | none =>
    change 0 ≤ c ∧ c < emin
    omega
  | some j =>
    have h1 : valuesOf keys c [(k, .known 1)] (some j) = if j.1 = k then 1 else 0 := by
      change attrValue (signedAttrs [(k, .known 1)]) j.1 = _
      unfold attrValue signedAttrs
      by_cases hj : j.1 = k
      · simp [hj, CredentialValue.value]
      · simp [List.lookup_cons, beq_eq_false_iff_ne.2 hj, hj]
    rw [h1]
    split_ifs <;> omega

/-- the private key forges whatever the coins -/
theorem insider_wins [NeZero (P * Q)] {e : Nat → Nat} {q emin emax B K : Nat} (h : Params P Q e q emin emax B K) {p : Nat} (hp : p.Prime)
    (hlo : emin ≤ p) (hhi : p ≤ emax) {k : String} (hk : k ∈ keys) (ω : Coins (ZMod (P * Q))ˣ (Name keys) (setup P Q e q emin emax)) :
    Wins P Q keys e q emin emax (insider ⟨((P / 2 : Nat) : Int), ((Q / 2 : Nat) : Int)⟩ p k) ω := by
  have ok := h.ok
  have hn : 1 < P * Q := by nlinarith [h.hP.two_le, h.hQ.two_le]
  have hmin := h.emin2
  have hPe := h.hPe
  have hQe := h.hQe
  have hr := h.range
  have hN1 : 1 < P / 2 * (Q / 2) := by
    have : 3 * 3 ≤ P / 2 * (Q / 2) := Nat.mul_le_mul (by omega) (by omega)
    omega
  obtain ⟨s, a, t⟩ := ω
  set x : Option (Name keys) → Int := fun i => 2 + ((a i : Nat) : Int) with hx
  obtain ⟨md', hkm⟩ := keys_made (keys := keys) h.hP h.hQ s x
  have ht : ∀ i < q, ext t i < 2 ^ 2723 := by
    intro i hi
    have := ext_at t ⟨i, hi⟩
    exact lt_of_eq_of_lt this (t ⟨i, hi⟩).2
  set F := insider ⟨((P / 2 : Nat) : Int), ((Q / 2 : Nat) : Int)⟩ p k with hF
  obtain ⟨hh, hs, hm, ho⟩ := session_eq (keys := keys) hn (N := P / 2 * (Q / 2)) (by push_cast; rfl) hN1 ok.order s x e (ext t) q
    (fun i hi => (ok.free _ (h.prime i hi) (h.lower i hi) (h.upper i hi)).1) ht F (fun _ _ => proper_one hk) q le_rfl
  refine ⟨_, _, _, hh, hkm, hs, ?_⟩
  obtain ⟨sig, hs1, hs2⟩ := issued (keys := keys) hn (N := P / 2 * (Q / 2)) (by push_cast; rfl) hN1 ok.order s x (fun _ => p) (fun _ => 0) 0
    (ok.free _ hp hlo hhi).1 (Nat.two_pow_pos _) ⟨1, [(k, .known 1)], 0⟩ (proper_one hk)
  have hout : ∀ l, F.out (toPk (pubOf (s ^ 2) x)) l = ({ sig with m2 := 1 }, [(k, .known 1)]) := by
    intro l
    rw [hF]
    unfold insider
    simp only
    rw [hs1]
  rw [hout]
  simp only [enc, real, Prod.mk.injEq] at hs2
  obtain ⟨ha, he, hv⟩ := hs2
  generalize (2 : Int) ^ 2723 + ((0 : Nat) : Int) = V at ha hv
  have hkU := keyUnits hn (pubOf (s ^ 2) x)
  refine ⟨?_, proper_one hk, ?_, ?_, ?_, small_values hmin k 1 (Or.inr rfl), ?_⟩
  · refine ⟨_, recomputeQ_units hkU _ _ (fun y hy => has_key _ ((signed_nodup (proper_one hk)).2 y hy)), ?_⟩
    simp only
    rw [ha, he, hkU.n_eq, (rep_val _).modExp hn, hv]
    congr 2
    have hnp := names_prod (pubOf (s ^ 2) x) 1 [(k, .known 1)] (proper_one hk)
    have hQ := quotient_eq (s ^ 2) x (valuesOf keys 1 [(k, .known 1)]) (V + 0)
    have hc := (ok.free _ hp hlo hhi).1
    rw [hnp] at hQ ⊢
    rw [add_zero] at hQ ⊢
    have hassoc : (pubOf (s ^ 2) x).Z / ((pubOf (s ^ 2) x).S ^ V * (pubOf (s ^ 2) x).R none ^ (1 : Int) *
        attrProd (namedR (pubOf (s ^ 2) x)) (signedAttrs [(k, .known 1)])) = (pubOf (s ^ 2) x).Z / ((pubOf (s ^ 2) x).S ^ V *
          ((pubOf (s ^ 2) x).R none ^ (1 : Int) * attrProd (namedR (pubOf (s ^ 2) x)) (signedAttrs [(k, .known 1)]))) := by rw [mul_assoc]
    rw [hassoc, hQ]
    have hone := pow_sq ok.order s (expo x (valuesOf keys 1 [(k, .known 1)]) V)
    unfold root
    rw [← zpow_mul]
    have hg := Int.gcd_eq_gcd_ab (p : Int) ((P / 2 * (Q / 2) : Nat) : Int)
    rw [Int.gcd_natCast_natCast, show Nat.gcd p (P / 2 * (Q / 2)) = 1 from hc] at hg
    have h2 : Int.gcdA p ((P / 2 * (Q / 2) : Nat) : Int) * (p : Int) = 1 - ((P / 2 * (Q / 2) : Nat) : Int) * Int.gcdB p ((P / 2 * (Q / 2) : Nat) : Int) := by
      push_cast at hg ⊢; linarith
    rw [h2, zpow_sub, zpow_one, zpow_mul]
    have hone' : ((s ^ 2) ^ expo x (valuesOf keys 1 [(k, .known 1)]) V) ^ ((P / 2 * (Q / 2) : Nat) : Int) = 1 := by
      rw [zpow_natCast]; exact hone
    rw [hone', one_zpow, inv_one, mul_one]
  · simp only; rw [he, Int.toNat_natCast]; exact hp
  · simp only; rw [he]; exact_mod_cast hlo
  · simp only; rw [he]; exact_mod_cast hhi
  · intro r hr
    obtain ⟨i, _, rfl⟩ := (ho r).1 hr
    refine ⟨small_values hmin k 0 (Or.inl rfl), fun hc => ?_⟩
    have h10 : (1 : Int) = 0 := congrFun hc none
    omega

/-! ## Numbers that meet the assumptions -/

namespace Toy

instance : NeZero (467 * 479) := ⟨by norm_num⟩

theorem params : Params 467 479 (fun _ => 101) 1 101 200 (233 * 239 * 10000) 10000 where
  hP := by norm_num
  hQ := by norm_num
  hP' := by norm_num
  hQ' := by norm_num
  hPQ := by norm_num
  hPe := by norm_num
  hQe := by norm_num
  emin2 := by norm_num
  range := by norm_num
  prime := by intro _ _; norm_num
  lower := by intro _ _; norm_num
  upper := by intro _ _; norm_num
  distinct := by intro i hi j hj _; omega
  small := by
    have : (2 : Nat) ^ 8 ≤ 2 ^ 2723 := Nat.pow_le_pow_right (by norm_num) (by norm_num)
    exact le_trans (by norm_num) this
  large := by norm_num
  bound := by norm_num

def names : List String := ["master_secret", "name"]

/-- **C204, met** one credential, exponents between 101 and 200: the issuer as a forger always wins, and the reduction takes a root
of a random number with probability at least 9/10 -/
theorem reduction_succeeds :
    pr (Wins 467 479 names (fun _ => 101) 1 101 200 (insider ⟨((467 / 2 : Nat) : Int), ((479 / 2 : Nat) : Int)⟩ 103 "name")) = 1 ∧
    9 / 10 ≤ pr (RootNew 467 479 names (fun _ => 101) 1 (233 * 239 * 10000) (insider ⟨((467 / 2 : Nat) : Int), ((479 / 2 : Nat) : Int)⟩ 103 "name")) +
      ∑ j ∈ Finset.range 1, pr (RootOld 467 479 names (fun _ => 101) 1 (233 * 239 * 10000) (insider ⟨((467 / 2 : Nat) : Int), ((479 / 2 : Nat) : Int)⟩ 103 "name") j) := by
  have hmem : "name" ∈ names := by decide
  have hone : pr (Wins 467 479 names (fun _ => 101) 1 101 200 (insider ⟨((467 / 2 : Nat) : Int), ((479 / 2 : Nat) : Int)⟩ 103 "name")) = 1 := by
    refine le_antisymm (pr_le_one _) ?_
    have : Nonempty (Fin ((setup 467 479 (fun _ => 101) 1 101 200).L)) := ⟨⟨0, params.ok.some⟩⟩
    have : Nonempty (Fin ((setup 467 479 (fun _ => 101) 1 101 200).T)) := ⟨⟨0, Nat.two_pow_pos _⟩⟩
    have h := pr_not_ge (fun ω => ¬ Wins 467 479 names (fun _ => 101) 1 101 200 (insider ⟨((467 / 2 : Nat) : Int), ((479 / 2 : Nat) : Int)⟩ 103 "name") ω)
    rw [pr_false _ (fun ω hω => hω (insider_wins params (by norm_num) (by norm_num) (by norm_num) hmem ω)), sub_zero] at h
    exact h.trans (pr_mono fun ω hω => not_not.1 hω)
  refine ⟨hone, ?_⟩
  have key := credentials_unforgeable params (keys := names) (by decide) (insider ⟨((467 / 2 : Nat) : Int), ((479 / 2 : Nat) : Int)⟩ 103 "name")
    (fun _ _ => proper_one hmem)
  refine le_trans ?_ key
  rw [hone]
  have hbig : (2 : ℚ) ^ 20 ≤ ((2 ^ 2723 : Nat) : ℚ) := by
    have : (2 : Nat) ^ 20 ≤ 2 ^ 2723 := Nat.pow_le_pow_right (by norm_num) (by norm_num)
    exact_mod_cast this
  generalize ((2 ^ 2723 : Nat) : ℚ) = T at *
  have hT : (0 : ℚ) < T := lt_of_lt_of_le (by norm_num) hbig
  have hq : ((200 : Nat) : ℚ) / T ≤ 1 / 1000 := by
    rw [div_le_div_iff₀ hT (by norm_num)]
    norm_num at hbig ⊢
    linarith
  have hlen : names.length = 2 := rfl
  rw [hlen]
  norm_num at hq ⊢
  linarith

end Toy

end Verif.CL.Forgery
