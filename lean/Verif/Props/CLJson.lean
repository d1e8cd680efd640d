import Verif.CL.Json
import Verif.Props.BNText
import Verif.Toy
/-!
# JSON form of the objects of the CL scheme (C170-C173)
-/
set_option linter.unusedSectionVars false
set_option linter.unusedSimpArgs false
set_option linter.unusedVariables false

namespace Verif.CL

open Verif BN Json

/-! ## Specification -/

/-- What `w` writes of `x` is read by `r` as `x`. -/
def RoundTrip {α : Type} (w : α → Json) (r : Reader α) (x : α) : Prop := r (w x) = .ok x

/-- The names in a map are distinct, as in every `HashMap`. -/
def Distinct {V : Type} (m : Map V) : Prop := (m.map Prod.fst).Nodup

/-- The names are in increasing order, as in every `BTreeMap` and `BTreeSet`. -/
def Increasing (l : List String) : Prop := l.Pairwise (· < ·)

/-- A reader that does not crash, whatever document it is given. -/
def NeverPanics {α : Type} (r : Reader α) : Prop := ∀ j, r j ≠ .panic

/-- The entries of an object under a name. -/
def entries (fs : List (String × Json)) (name : String) : List (String × Json) := fs.filter (fun e => e.1 == name)

/-- What is read from an object depends on nothing but its entries under the given names. -/
def Looks {α : Type} (r : Reader α) (names : List String) : Prop :=
  ∀ fs gs, (∀ n ∈ names, entries fs n = entries gs n) → r (.obj fs) = r (.obj gs)

/-- An object is refused unless it has exactly one entry under each of the given names. -/
def Needs {α : Type} (r : Reader α) (names : List String) : Prop :=
  ∀ fs, ∀ n ∈ names, (entries fs n).length ≠ 1 → ∀ x, r (.obj fs) ≠ .ok x

/-! ## Building blocks -/

theorem roundTrip_bn (b b' : Build) (a : Int) : readBn b' (ofBn b a) = .ok a := by
  obtain ⟨h1, h2, h3, h4⟩ := serde_round_trip a
  cases b <;> cases b' <;> simp [readBn, ofBn, String.toList_ofList, h1, h2, h3, h4, liftErr]

theorem roundTrip_txt {G : Type} (t : Txt G) (g : G) : t.read (t.write g) = .ok g := by
  simp [Txt.read, Txt.write, t.dec_enc]

theorem roundTrip_opt {α : Type} (w : α → Json) (r : Reader α) (x : Option α) (hn : ∀ a, w a ≠ .null)
    (h : ∀ a, x = some a → r (w a) = .ok a) : readOpt r (ofOpt w x) = .ok x := by
  cases x with
  | none => rfl
  | some a =>
    have e := h a rfl
    have hn := hn a
    simp only [ofOpt]
    generalize w a = j at *
    cases j <;> simp_all [readOpt]

theorem mapM_roundTrip {α : Type} (w : α → Json) (r : Reader α) (l : List α) (h : ∀ x ∈ l, r (w x) = .ok x) :
    (l.map w).mapM r = .ok l := by
  induction l with
  | nil => rfl
  | cons x l ih =>
    rw [List.map_cons, List.mapM_cons, h x (by simp), ih (fun y hy => h y (by simp [hy]))]
    rfl

theorem roundTrip_vec {α : Type} (w : α → Json) (r : Reader α) (l : List α) (h : ∀ x ∈ l, r (w x) = .ok x) :
    readVec r (ofVec w l) = .ok l := mapM_roundTrip w r l h

theorem mapSet_new {α : Type} (m : Map α) (k : String) (v : α) (h : k ∉ m.map Prod.fst) : mapSet m k v = m ++ [(k, v)] := by
  unfold mapSet Map.hasKey
  rw [if_neg]
  simp only [List.any_eq_true, beq_iff_eq, not_exists, not_and]
  intro e he hk
  exact h (List.mem_map.mpr ⟨e, he, hk⟩)

theorem readEntries_aux {α : Type} (w : α → Json) (r : Reader α) (m : Map α) : ∀ (acc : Map α),
    ((acc ++ m).map Prod.fst).Nodup → (∀ e ∈ m, r (w e.2) = .ok e.2) →
    (m.map (fun e => (e.1, w e.2))).foldlM (fun acc e => do
      let v ← r e.2
      pure (mapSet acc e.1 v)) acc = .ok (acc ++ m) := by
  induction m with
  | nil => intro acc _ _; simp
  | cons e m ih =>
    intro acc hd h
    rw [List.map_cons, List.foldlM_cons, h e (by simp)]
    simp only [Res.ok_bind, Res.pure_eq]
    have hnew : e.1 ∉ acc.map Prod.fst := by
      intro hm
      rw [List.map_append, List.map_cons, List.nodup_append] at hd
      exact hd.2.2 _ hm _ (by simp) rfl
    rw [mapSet_new _ _ _ hnew]
    have := ih (acc ++ [(e.1, e.2)]) (by simpa using hd) (fun x hx => h x (by simp [hx]))
    simpa using this

theorem roundTrip_entries {α : Type} (w : α → Json) (r : Reader α) (m : Map α) (hd : Distinct m)
    (h : ∀ e ∈ m, r (w e.2) = .ok e.2) : readEntries r (m.map (fun e => (e.1, w e.2))) = .ok m :=
  readEntries_aux w r m [] hd h

theorem roundTrip_hashMap {α : Type} (w : α → Json) (r : Reader α) (m : Map α) (hd : Distinct m)
    (h : ∀ e ∈ m, r (w e.2) = .ok e.2) : readHashMap r (ofMap w m) = .ok m := roundTrip_entries w r m hd h

theorem Increasing.distinct {V : Type} {m : Map V} (h : Increasing (m.map Prod.fst)) : Distinct m :=
  List.Pairwise.imp (fun hab => ne_of_lt hab) h

theorem roundTrip_bTreeMap {α : Type} (w : α → Json) (r : Reader α) (m : Map α) (hs : Increasing (m.map Prod.fst))
    (h : ∀ e ∈ m, r (w e.2) = .ok e.2) : readBTreeMap r (ofMap w m) = .ok m := by
  have h1 := roundTrip_entries w r m hs.distinct h
  simp only [readBTreeMap, ofMap]
  rw [h1]
  simp only [Res.ok_bind, Res.pure_eq]
  congr 1
  apply List.mergeSort_of_pairwise
  have : List.Pairwise (fun a b : String × α => a.1 < b.1) m := by simpa [Increasing, List.pairwise_map] using hs
  exact this.imp (fun hab => by simpa using le_of_lt hab)

theorem roundTrip_strSet (l : List String) (hs : Increasing l) : readStrSet (ofVec .str l) = .ok l := by
  have h := roundTrip_vec Json.str readStr l (fun x _ => rfl)
  simp only [readStrSet, h, Res.ok_bind, Res.pure_eq]
  congr 1
  have hn : l.Nodup := hs.imp (fun hab => ne_of_lt hab)
  have hp : l.Pairwise (· ≤ ·) := hs.imp (fun hab => le_of_lt hab)
  exact (List.toFinset_sort (· ≤ ·) hn).mpr hp

theorem roundTrip_nat (n : Nat) (h : n < 2 ^ 32) : readU32 (.num n) = .ok n := by
  have h2 : (0 : Int) ≤ n ∧ (n : Int) < ((4294967296 : Nat) : Int) := ⟨by positivity, by omega⟩
  simp only [readU32, readNat, if_pos h2, Int.toNat_natCast]

theorem roundTrip_natSet (ord : Finset Nat → List Nat) (s : Finset Nat) (ho : (ord s).toFinset = s)
    (hb : ∀ n ∈ s, n < 2 ^ 32) : readNatSet (ofVec (fun n : Nat => .num n) (ord s)) = .ok s := by
  have h := roundTrip_vec (fun n : Nat => Json.num n) readU32 (ord s) (fun x hx =>
    roundTrip_nat x (hb x (by rw [← ho]; simpa using hx)))
  simp only [readNatSet, h, Res.ok_bind, Res.pure_eq, ho]

theorem roundTrip_bytes (l : Bytes) : readBytes (bytesToJson l) = .ok l := by
  have h : ∀ l : Bytes, readVec (readNat 256) (bytesToJson l) = .ok (l.map UInt8.toNat) := by
    intro l
    have := roundTrip_vec (fun n : Nat => Json.num n) (readNat 256) (l.map UInt8.toNat) (fun x hx => by
      obtain ⟨u, -, rfl⟩ := List.mem_map.mp hx
      have hu := u.toNat_lt
      have h2 : (0 : Int) ≤ u.toNat ∧ ((u.toNat : Nat) : Int) < ((256 : Nat) : Int) := ⟨by positivity, by omega⟩
      simp only [readNat, if_pos h2, Int.toNat_natCast])
    simpa [bytesToJson, ofVec, Function.comp_def] using this
  simp [readBytes, h, Function.comp_def]

@[simp] theorem ofBn_ne_null (b : Build) (a : Int) : ofBn b a ≠ .null := by cases b <;> simp [ofBn]
@[simp] theorem txt_ne_null {G : Type} (t : Txt G) (g : G) : t.write g ≠ .null := by simp [Txt.write]

/-! ## C170: round trips -/

section
variable {F G1 G2 GT : Type} (tF : Txt F) (t1 : Txt G1) (t2 : Txt G2) (tT : Txt GT) (b b' : Build)

/-- **C170** -/
theorem primaryPubKey_round_trip (k : PrimaryPubKey) (hr : Distinct k.r) :
    RoundTrip (PrimaryPubKey.toJson b) (PrimaryPubKey.fromJson b') k := by
  have h := roundTrip_hashMap (ofBn b) (readBn b') k.r hr (fun e _ => roundTrip_bn b b' e.2)
  simp [RoundTrip, PrimaryPubKey.toJson, PrimaryPubKey.fromJson, fields, req, dflt, List.filter, roundTrip_bn, h]

/-- **C170** -/
theorem primaryPrivKey_round_trip (k : PrimaryPrivKey) :
    RoundTrip (PrimaryPrivKey.toJson b) (PrimaryPrivKey.fromJson b') k := by
  simp [RoundTrip, PrimaryPrivKey.toJson, PrimaryPrivKey.fromJson, fields, req, dflt, List.filter, roundTrip_bn]

/-- **C170** -/
theorem keyProof_round_trip (k : KeyProof) : RoundTrip (KeyProof.toJson b) (KeyProof.fromJson b') k := by
  have h := roundTrip_vec (fun e : String × Int => Json.arr [.str e.1, ofBn b e.2]) (readStrBn b') k.xrCap
    (fun e _ => by simp [readStrBn, readStr, roundTrip_bn])
  simp [RoundTrip, KeyProof.toJson, KeyProof.fromJson, fields, req, dflt, List.filter, roundTrip_bn, h]

/-- **C170** -/
theorem revPubKey_round_trip (k : Rev.PubKey G1 G2) :
    RoundTrip (Rev.PubKey.toJson t1 t2) (Rev.PubKey.fromJson t1 t2) k := by
  simp [RoundTrip, Rev.PubKey.toJson, Rev.PubKey.fromJson, fields, req, dflt, List.filter, roundTrip_txt]

/-- **C170** -/
theorem revPrivKey_round_trip (k : Rev.PrivKey F) : RoundTrip (Rev.PrivKey.toJson tF) (Rev.PrivKey.fromJson tF) k := by
  simp [RoundTrip, Rev.PrivKey.toJson, Rev.PrivKey.fromJson, fields, req, dflt, List.filter, roundTrip_txt]

/-- **C170** -/
theorem credPubKey_round_trip (k : CredPubKey G1 G2) (hr : Distinct k.pKey.r) :
    RoundTrip (CredPubKey.toJson t1 t2 b) (CredPubKey.fromJson t1 t2 b') k := by
  have h : PrimaryPubKey.fromJson b' (k.pKey.toJson b) = .ok k.pKey := primaryPubKey_round_trip b b' k.pKey hr
  have h2 := roundTrip_opt (Rev.PubKey.toJson t1 t2) (Rev.PubKey.fromJson t1 t2) k.rKey
    (fun a => by simp [Rev.PubKey.toJson]) (fun a _ => revPubKey_round_trip t1 t2 a)
  simp [RoundTrip, CredPubKey.toJson, CredPubKey.fromJson, fields, req, dflt, List.filter, h, h2]

/-- **C170** -/
theorem credPrivKey_round_trip (k : CredPrivKey F) :
    RoundTrip (CredPrivKey.toJson tF b) (CredPrivKey.fromJson tF b') k := by
  have h : PrimaryPrivKey.fromJson b' (k.pKey.toJson b) = .ok k.pKey := primaryPrivKey_round_trip b b' k.pKey
  have h2 := roundTrip_opt (Rev.PrivKey.toJson tF) (Rev.PrivKey.fromJson tF) k.rKey
    (fun a => by simp [Rev.PrivKey.toJson]) (fun a _ => revPrivKey_round_trip tF a)
  simp [RoundTrip, CredPrivKey.toJson, CredPrivKey.fromJson, fields, req, dflt, List.filter, h, h2]

/-- **C170** -/
theorem blinded_round_trip (x : Blinded G1) (hh : Increasing x.hidden) (hc : Increasing (x.committed.map Prod.fst)) :
    RoundTrip (Blinded.toJson t1 b) (Blinded.fromJson t1 b') x := by
  have h1 := roundTrip_opt t1.write t1.read x.ur (fun a => by simp) (fun a _ => roundTrip_txt t1 a)
  have h2 := roundTrip_strSet x.hidden hh
  have h3 := roundTrip_bTreeMap (ofBn b) (readBn b') x.committed hc (fun e _ => roundTrip_bn b b' e.2)
  simp [RoundTrip, Blinded.toJson, Blinded.fromJson, fields, req, dflt, List.filter, roundTrip_bn, h1, h2, h3]

/-- **C170** -/
theorem blindingFactors_round_trip (x : BlindingFactors F) :
    RoundTrip (BlindingFactors.toJson tF b) (BlindingFactors.fromJson tF b') x := by
  have h1 := roundTrip_opt tF.write tF.read x.vrPrime (fun a => by simp) (fun a _ => roundTrip_txt tF a)
  simp [RoundTrip, BlindingFactors.toJson, BlindingFactors.fromJson, fields, req, dflt, List.filter, roundTrip_bn, h1]

/-- **C170** -/
theorem blindedProof_round_trip (x : BlindedProof) (hm : Increasing (x.mCaps.map Prod.fst))
    (hr : Increasing (x.rCaps.map Prod.fst)) : RoundTrip (BlindedProof.toJson b) (BlindedProof.fromJson b') x := by
  have h1 := roundTrip_bTreeMap (ofBn b) (readBn b') x.mCaps hm (fun e _ => roundTrip_bn b b' e.2)
  have h2 := roundTrip_bTreeMap (ofBn b) (readBn b') x.rCaps hr (fun e _ => roundTrip_bn b b' e.2)
  simp [RoundTrip, BlindedProof.toJson, BlindedProof.fromJson, fields, req, dflt, List.filter, roundTrip_bn, h1, h2]

/-- **C170** -/
theorem primarySig_round_trip (x : PrimarySig) : RoundTrip (PrimarySig.toJson b) (PrimarySig.fromJson b') x := by
  simp [RoundTrip, PrimarySig.toJson, PrimarySig.fromJson, fields, req, dflt, List.filter, roundTrip_bn]

theorem nonRevSig_aux (x : Rev.NonRevSig F G1 G2) (ru : Reader Nat) (h : ru (.num x.i) = .ok x.i) : (do
    let fs ← fields (x.toJson tF t1 t2)
    let sigma ← req fs "sigma" t1.read
    let c ← req fs "c" tF.read
    let vr ← req fs "vr_prime_prime" tF.read
    let w ← req fs "witness_signature" (readWitnessSig t1 t2)
    let gI ← req fs "g_i" t1.read
    let i ← req fs "i" ru
    let m2 ← req fs "m2" tF.read
    pure ({ sigma := sigma, c := c, vr := vr, sigmaI := w.1, uI := w.2.1, wgI := w.2.2, gI := gI, i := i, m2 := m2 } :
      Rev.NonRevSig F G1 G2)) = .ok x := by
  simp [Rev.NonRevSig.toJson, req, readWitnessSig, fields, List.filter, roundTrip_txt, h]

theorem nonRevSig_do (j : Json) : Rev.NonRevSig.fromJson tF t1 t2 j = (do
    let fs ← fields j
    let sigma ← req fs "sigma" t1.read
    let c ← req fs "c" tF.read
    let vr ← req fs "vr_prime_prime" tF.read
    let w ← req fs "witness_signature" (readWitnessSig t1 t2)
    let gI ← req fs "g_i" t1.read
    let i ← req fs "i" readU32
    let m2 ← req fs "m2" tF.read
    pure { sigma := sigma, c := c, vr := vr, sigmaI := w.1, uI := w.2.1, wgI := w.2.2, gI := gI, i := i, m2 := m2 }) :=
  rfl

/-- **C170** -/
theorem nonRevSig_round_trip (x : Rev.NonRevSig F G1 G2) (hi : x.i < 2 ^ 32) :
    RoundTrip (Rev.NonRevSig.toJson tF t1 t2) (Rev.NonRevSig.fromJson tF t1 t2) x := by
  exact (nonRevSig_do tF t1 t2 _).trans (nonRevSig_aux tF t1 t2 x readU32 (roundTrip_nat x.i hi))

/-- **C170** -/
theorem credSig_round_trip (x : CredSig F G1 G2) (hi : ∀ r, x.r = some r → r.i < 2 ^ 32) :
    RoundTrip (CredSig.toJson tF t1 t2 b) (CredSig.fromJson tF t1 t2 b') x := by
  have h : PrimarySig.fromJson b' (x.p.toJson b) = .ok x.p := primarySig_round_trip b b' x.p
  have h2 := roundTrip_opt (Rev.NonRevSig.toJson tF t1 t2) (Rev.NonRevSig.fromJson tF t1 t2) x.r
    (fun a => by simp [Rev.NonRevSig.toJson]) (fun a ha => nonRevSig_round_trip tF t1 t2 a (hi a ha))
  simp [RoundTrip, CredSig.toJson, CredSig.fromJson, fields, req, dflt, List.filter, h, h2]

/-- **C170** -/
theorem sigProof_round_trip (x : SigProof) : RoundTrip (SigProof.toJson b) (SigProof.fromJson b') x := by
  simp [RoundTrip, SigProof.toJson, SigProof.fromJson, fields, req, dflt, List.filter, roundTrip_bn]

/-- **C170** -/
theorem masterSecret_round_trip (x : Int) : RoundTrip (masterSecretToJson b) (masterSecretFromJson b') x := by
  simp [RoundTrip, masterSecretToJson, masterSecretFromJson, fields, req, dflt, List.filter, roundTrip_bn]

theorem credentialValue_round_trip (x : CredentialValue) :
    RoundTrip (CredentialValue.toJson b) (CredentialValue.fromJson b') x := by
  cases x <;> simp [RoundTrip, CredentialValue.toJson, CredentialValue.fromJson, fields, req, dflt, List.filter, roundTrip_bn]

/-- **C170** -/
theorem values_round_trip (x : Map CredentialValue) (hx : Increasing (x.map Prod.fst)) :
    RoundTrip (valuesToJson b) (valuesFromJson b') x := by
  have h := roundTrip_bTreeMap (CredentialValue.toJson b) (CredentialValue.fromJson b') x hx
    (fun e _ => credentialValue_round_trip b b' e.2)
  simp [RoundTrip, valuesToJson, valuesFromJson, fields, req, dflt, List.filter, h]

/-- **C170** -/
theorem schema_round_trip (x : List String) (hx : Increasing x) : RoundTrip schemaToJson schemaFromJson x := by
  have h := roundTrip_strSet x hx
  simp [RoundTrip, schemaToJson, schemaFromJson, fields, req, dflt, List.filter, h]

/-- **C170** -/
theorem one_round_trip {G : Type} (name : String) (t : Txt G) (x : G) :
    RoundTrip (oneToJson name t) (oneFromJson name t) x := by
  simp [RoundTrip, oneToJson, oneFromJson, fields, req, dflt, List.filter, roundTrip_txt]

/-- **C170** -/
theorem delta_round_trip (ord : Finset Nat → List Nat) (ho : ∀ s, (ord s).toFinset = s) (x : Rev.Delta G2)
    (hi : ∀ n ∈ x.issued, n < 2 ^ 32) (hr : ∀ n ∈ x.revoked, n < 2 ^ 32) :
    RoundTrip (Rev.Delta.toJson t2 ord) (Rev.Delta.fromJson t2) x := by
  have h1 := roundTrip_natSet ord x.issued (ho _) hi
  have h2 := roundTrip_natSet ord x.revoked (ho _) hr
  obtain ⟨p, a, i, r⟩ := x
  have ht : ∀ g, readOpt t2.read (t2.write g) = .ok (some g) := fun g => by
    simpa [ofOpt] using roundTrip_opt t2.write t2.read (some g) (fun a => by simp) (fun a _ => roundTrip_txt t2 a)
  simp only at h1 h2
  simp only [RoundTrip, Rev.Delta.toJson, Rev.Delta.fromJson, fields, Res.ok_bind]
  cases p <;> by_cases hi0 : i = ∅ <;> by_cases hr0 : r = ∅ <;>
    simp [req, dflt, List.filter, roundTrip_txt, hi0, hr0, h1, h2, ht]

theorem tailsGen_aux (x : Rev.TailsGen F G2) (ru : Reader Nat) (h1 : ru (.num x.size) = .ok x.size)
    (h2 : ru (.num x.currentIndex) = .ok x.currentIndex) : (do
    let fs ← fields (Rev.TailsGen.toJson tF t2 x)
    let size ← req fs "size" ru
    let i ← req fs "current_index" ru
    let gDash ← req fs "g_dash" t2.read
    let gamma ← req fs "gamma" tF.read
    pure { size := size, currentIndex := i, gDash := gDash, gamma := gamma : Rev.TailsGen F G2 }) = .ok x := by
  simp [Rev.TailsGen.toJson, fields, req, dflt, List.filter, roundTrip_txt, h1, h2]

theorem tailsGen_do (j : Json) : Rev.TailsGen.fromJson tF t2 j = (do
    let fs ← fields j
    let size ← req fs "size" readU32
    let i ← req fs "current_index" readU32
    let gDash ← req fs "g_dash" t2.read
    let gamma ← req fs "gamma" tF.read
    pure { size := size, currentIndex := i, gDash := gDash, gamma := gamma : Rev.TailsGen F G2 }) := rfl

/-- **C170** -/
theorem tailsGen_round_trip (x : Rev.TailsGen F G2) (hs : x.size < 2 ^ 32) (hi : x.currentIndex < 2 ^ 32) :
    RoundTrip (Rev.TailsGen.toJson tF t2) (Rev.TailsGen.fromJson tF t2) x := by
  exact (tailsGen_do tF t2 _).trans
    (tailsGen_aux tF t2 x readU32 (roundTrip_nat x.size hs) (roundTrip_nat x.currentIndex hi))

theorem predicate_round_trip (x : Predicate) (hv : InI32 x.value) : RoundTrip Predicate.toJson Predicate.fromJson x := by
  obtain ⟨n, t, v⟩ := x
  have h : readI32 (.num v) = .ok v := by simp only [readI32, if_pos hv]
  cases t <;> simp [RoundTrip, Predicate.toJson, Predicate.fromJson, fields, req, dflt, List.filter, readStr, h,
    PredicateType.toJson, PredicateType.fromJson]

theorem eqProof_round_trip (x : EqProof) (hr : Increasing (x.revealed.map Prod.fst)) (hm : Distinct x.m) :
    RoundTrip (EqProof.toJson b) (EqProof.fromJson b') x := by
  have h1 := roundTrip_bTreeMap (ofBn b) (readBn b') x.revealed hr (fun e _ => roundTrip_bn b b' e.2)
  have h2 := roundTrip_hashMap (ofBn b) (readBn b') x.m hm (fun e _ => roundTrip_bn b b' e.2)
  simp [RoundTrip, EqProof.toJson, EqProof.fromJson, fields, req, dflt, List.filter, roundTrip_bn, h1, h2]

theorem neProof_round_trip (x : NeProof) (hu : Distinct x.u) (hr : Distinct x.r) (ht : Distinct x.t)
    (hp : InI32 x.predicate.value) : RoundTrip (NeProof.toJson b) (NeProof.fromJson b') x := by
  have h1 := roundTrip_hashMap (ofBn b) (readBn b') x.u hu (fun e _ => roundTrip_bn b b' e.2)
  have h2 := roundTrip_hashMap (ofBn b) (readBn b') x.r hr (fun e _ => roundTrip_bn b b' e.2)
  have h3 := roundTrip_hashMap (ofBn b) (readBn b') x.t ht (fun e _ => roundTrip_bn b b' e.2)
  have h4 : Predicate.fromJson x.predicate.toJson = .ok x.predicate := predicate_round_trip x.predicate hp
  simp [RoundTrip, NeProof.toJson, NeProof.fromJson, fields, req, dflt, List.filter, roundTrip_bn, h1, h2, h3, h4]

/-- The maps and numbers of a proof are such as the Rust types allow. -/
structure PrimaryProof.Typed (x : PrimaryProof) : Prop where
  revealed : Increasing (x.eq.revealed.map Prod.fst)
  m : Distinct x.eq.m
  ne : ∀ p ∈ x.ne, Distinct p.u ∧ Distinct p.r ∧ Distinct p.t ∧ InI32 p.predicate.value

theorem primaryProof_round_trip (x : PrimaryProof) (hx : x.Typed) :
    RoundTrip (PrimaryProof.toJson b) (PrimaryProof.fromJson b') x := by
  have h1 : EqProof.fromJson b' (x.eq.toJson b) = .ok x.eq := eqProof_round_trip b b' x.eq hx.revealed hx.m
  have h2 := roundTrip_vec (NeProof.toJson b) (NeProof.fromJson b') x.ne (fun p hp => by
    obtain ⟨hu, hr, ht, hv⟩ := hx.ne p hp
    exact neProof_round_trip b b' p hu hr ht hv)
  simp [RoundTrip, PrimaryProof.toJson, PrimaryProof.fromJson, fields, req, dflt, List.filter, h1, h2]

theorem xList_round_trip (x : Rev.XList F) : RoundTrip (Rev.XList.toJson tF) (Rev.XList.fromJson tF) x := by
  simp [RoundTrip, Rev.XList.toJson, Rev.XList.fromJson, fields, req, List.filter, roundTrip_txt]

theorem cList_round_trip (x : Rev.CList G1 G2) : RoundTrip (Rev.CList.toJson t1 t2) (Rev.CList.fromJson t1 t2) x := by
  simp [RoundTrip, Rev.CList.toJson, Rev.CList.fromJson, fields, req, List.filter, roundTrip_txt]

theorem nonRevoc_round_trip (x : Rev.XList F × Rev.CList G1 G2) :
    RoundTrip (nonRevocToJson tF t1 t2) (nonRevocFromJson tF t1 t2) x := by
  have h1 : Rev.XList.fromJson tF (x.1.toJson tF) = .ok x.1 := xList_round_trip tF x.1
  have h2 : Rev.CList.fromJson t1 t2 (x.2.toJson t1 t2) = .ok x.2 := cList_round_trip t1 t2 x.2
  simp [RoundTrip, nonRevocToJson, nonRevocFromJson, fields, req, List.filter, h1, h2]

theorem subProof_round_trip (x : SubProof F G1 G2) (hx : x.primary.Typed) :
    RoundTrip (SubProof.toJson tF t1 t2 b) (SubProof.fromJson tF t1 t2 b') x := by
  have h1 : PrimaryProof.fromJson b' (x.primary.toJson b) = .ok x.primary := primaryProof_round_trip b b' x.primary hx
  have h2 := roundTrip_opt (nonRevocToJson tF t1 t2) (nonRevocFromJson tF t1 t2) x.nonRevoc
    (fun a => by simp [nonRevocToJson]) (fun a _ => nonRevoc_round_trip tF t1 t2 a)
  simp [RoundTrip, SubProof.toJson, SubProof.fromJson, fields, req, dflt, List.filter, h1, h2]

/-- **C170** A whole presentation survives serialization by either build and deserialization by either build. -/
theorem proof_round_trip (x : Proof F G1 G2) (hx : ∀ p ∈ x.proofs, p.primary.Typed) :
    RoundTrip (Proof.toJson tF t1 t2 b) (Proof.fromJson tF t1 t2 b') x := by
  have h1 := roundTrip_vec (SubProof.toJson tF t1 t2 b) (SubProof.fromJson tF t1 t2 b') x.proofs
    (fun p hp => subProof_round_trip tF t1 t2 b b' p (hx p hp))
  have h2 := roundTrip_vec bytesToJson readBytes x.cList (fun l _ => roundTrip_bytes l)
  simp [RoundTrip, Proof.toJson, Proof.fromJson, readAggregated, fields, req, List.filter, roundTrip_bn, h1, h2]

end

/-! ## Maps: the last entry counts -/

theorem lookup_mapSet {α : Type} (m : Map α) (k k' : String) (v : α) :
    (mapSet m k v).lookup k' = if k' = k then some v else m.lookup k' := by
  unfold mapSet Map.hasKey
  induction m with
  | nil =>
    by_cases h : k' = k
    · simp [List.lookup, h]
    · have hb : (k' == k) = false := by simpa using h
      simp [List.lookup, h, hb]
  | cons e m ih =>
    obtain ⟨a, w⟩ := e
    by_cases hk : a = k
    · subst hk
      simp only [List.any_cons, BEq.rfl, Bool.true_or, if_true, List.map_cons]
      by_cases h : k' = a
      · subst h; simp [List.lookup]
      · have hb : (k' == a) = false := by simpa using h
        simp only [List.lookup, hb, if_neg h]
        clear ih
        induction m with
        | nil => rfl
        | cons e m ih =>
          obtain ⟨c, w'⟩ := e
          by_cases hc : c = a
          · subst hc; simpa [List.lookup, hb] using ih
          · by_cases hc' : k' = c
            · subst hc'; simp [List.lookup, hc]
            · have hb' : (k' == c) = false := by simpa using hc'
              simpa [List.lookup, hc, hb'] using ih
    · have hka : (a == k) = false := by simpa using hk
      simp only [List.any_cons, hka, Bool.false_or]
      by_cases h : k' = a
      · subst h
        have : ¬ k' = k := hk
        split <;> simp [List.lookup, hk]
      · have hb : (k' == a) = false := by simpa using h
        rw [apply_ite (List.lookup k')] at ih ⊢
        simpa [List.lookup, hb, hk] using ih

theorem keys_mapSet {α : Type} (m : Map α) (k : String) (v : α) (h : Distinct m) : Distinct (mapSet m k v) := by
  unfold mapSet
  split
  · have : (m.map (fun e => if e.1 = k then (k, v) else e)).map Prod.fst = m.map Prod.fst := by
      rw [List.map_map]
      apply List.map_congr_left
      intro e _
      simp only [Function.comp_apply]
      split
      · rename_i h'; exact h'.symm
      · rfl
    simpa [Distinct, this] using h
  · rename_i hk
    simp only [Map.hasKey, List.any_eq_true, beq_iff_eq, not_exists, not_and] at hk
    simp only [Distinct, List.map_append, List.map_cons, List.map_nil, List.nodup_append, List.nodup_cons]
    refine ⟨h, by simp, ?_⟩
    intro a ha b hb
    obtain ⟨e, he, rfl⟩ := List.mem_map.mp ha
    simp only [List.mem_singleton] at hb
    subst hb
    exact hk e he

/-- **C172** An object read as a map: every name of the object, with the value of its last entry. -/
theorem readEntries_spec {α : Type} (r : Reader α) (fs : List (String × Json)) (m : Map α) (h : readEntries r fs = .ok m) :
    Distinct m ∧ ∀ k, match (entries fs k).getLast? with
      | none => m.lookup k = none
      | some e => ∃ v, r e.2 = .ok v ∧ m.lookup k = some v := by
  have key : ∀ (fs : List (String × Json)) (acc m : Map α), Distinct acc →
      fs.foldlM (fun m e => do
        let v ← r e.2
        pure (mapSet m e.1 v)) acc = .ok m →
      Distinct m ∧ ∀ k, match (entries fs k).getLast? with
        | none => m.lookup k = acc.lookup k
        | some e => ∃ v, r e.2 = .ok v ∧ m.lookup k = some v := by
    intro fs
    induction fs with
    | nil =>
      intro acc m hd h
      simp only [List.foldlM_nil, Res.pure_eq] at h
      injection h with h
      subst h
      exact ⟨hd, fun k => rfl⟩
    | cons e fs ih =>
      intro acc m hd h
      rw [List.foldlM_cons, Res.bind_eq_ok] at h
      obtain ⟨a, ha, h⟩ := h
      rw [Res.bind_eq_ok] at ha
      obtain ⟨v, hv, ha⟩ := ha
      simp only [Res.pure_eq] at ha
      injection ha with ha
      subst ha
      obtain ⟨h1, h2⟩ := ih _ _ (keys_mapSet acc e.1 v hd) h
      refine ⟨h1, fun k => ?_⟩
      have := h2 k
      simp only [entries] at this ⊢
      by_cases hk : e.1 = k
      · subst hk
        simp only [List.filter_cons, BEq.rfl, if_true]
        rw [List.getLast?_cons]
        cases hl : (List.filter (fun x => x.1 == e.1) fs).getLast? with
        | none =>
          rw [hl] at this
          simp only [Option.getD_none]
          exact ⟨v, hv, by simpa [lookup_mapSet] using this⟩
        | some e' =>
          rw [hl] at this
          simpa using this
      · have hb : (e.1 == k) = false := by simpa using hk
        simp only [List.filter_cons, hb, Bool.false_eq_true, if_false]
        cases hl : (List.filter (fun x => x.1 == k) fs).getLast? with
        | none =>
          rw [hl] at this
          simp only [lookup_mapSet, if_neg (Ne.symm hk)] at this
          exact this
        | some e' =>
          rw [hl] at this
          simpa using this
  have := key fs [] m (by simp [Distinct]) h
  simpa using this

/-! ## C171: documents of the older format -/

/-- A public key as written before the link secret became an attribute: its base under `rms`, the others in the map. -/
def oldKey (b : Build) (k : PrimaryPubKey) (rms : Int) : Json :=
  .obj [("n", ofBn b k.n), ("s", ofBn b k.s), ("rms", ofBn b rms), ("r", ofMap (ofBn b) k.r),
    ("rctxt", ofBn b k.rctxt), ("z", ofBn b k.z)]

/-- **C171** An old key is read with the base of the link secret under the name `master_secret`; whatever the map of the
document has under this name is overwritten. -/
theorem old_key_read (b b' : Build) (k : PrimaryPubKey) (rms : Int) (hr : Distinct k.r) (h0 : rms ≠ 0) :
    ∃ k', PrimaryPubKey.fromJson b' (oldKey b k rms) = .ok k' ∧ k'.n = k.n ∧ k'.s = k.s ∧ k'.rctxt = k.rctxt ∧ k'.z = k.z ∧
      k'.r.lookup "master_secret" = some rms ∧ (∀ name, name ≠ "master_secret" → k'.r.lookup name = k.r.lookup name) ∧
      Distinct k'.r := by
  have h := roundTrip_hashMap (ofBn b) (readBn b') k.r hr (fun e _ => roundTrip_bn b b' e.2)
  refine ⟨{ n := k.n, s := k.s, rctxt := k.rctxt, z := k.z, r := mapSet k.r "master_secret" rms }, ?_, rfl, rfl, rfl, rfl,
    by simp [lookup_mapSet], fun name hn => by simp [lookup_mapSet, hn], keys_mapSet _ _ _ hr⟩
  simp [oldKey, PrimaryPubKey.fromJson, fields, req, dflt, List.filter, roundTrip_bn, h, h0]

/-- **C171** A zero under `rms` counts as none: the key is read without a base for the link secret, unless the map has
one. -/
theorem old_key_zero (b b' : Build) (k : PrimaryPubKey) (hr : Distinct k.r) :
    PrimaryPubKey.fromJson b' (oldKey b k 0) = .ok k := by
  have h := roundTrip_hashMap (ofBn b) (readBn b') k.r hr (fun e _ => roundTrip_bn b b' e.2)
  simp [oldKey, PrimaryPubKey.fromJson, fields, req, dflt, List.filter, roundTrip_bn, h]

/-- **C171** The key in the old format and the same key in the new one are read as keys with the same numbers and the same
map. -/
theorem old_key_same (b b' c c' : Build) (k : PrimaryPubKey) (rms : Int) (hr : Distinct k.r) (h0 : rms ≠ 0)
    (hk : k.r.lookup "master_secret" = some rms) :
    ∃ k₁ k₂, PrimaryPubKey.fromJson b' (oldKey b { k with r := k.r.filter (fun e => e.1 != "master_secret") } rms) = .ok k₁ ∧
      PrimaryPubKey.fromJson c' (k.toJson c) = .ok k₂ ∧ k₁.n = k₂.n ∧ k₁.s = k₂.s ∧ k₁.rctxt = k₂.rctxt ∧ k₁.z = k₂.z ∧
      ∀ name, k₁.r.lookup name = k₂.r.lookup name := by
  have hd : Distinct (k.r.filter (fun e => e.1 != "master_secret")) :=
    List.Nodup.sublist (List.Sublist.map _ List.filter_sublist) hr
  obtain ⟨k', h1, h2, h3, h4, h5, h6, h7, -⟩ :=
    old_key_read b b' { k with r := k.r.filter (fun e => e.1 != "master_secret") } rms hd h0
  refine ⟨k', k, h1, primaryPubKey_round_trip c c' k hr, h2, h3, h4, h5, fun name => ?_⟩
  by_cases hn : name = "master_secret"
  · subst hn; rw [h6, hk]
  · rw [h7 name hn]
    simp only
    generalize k.r = m
    induction m with
    | nil => rfl
    | cons e m ih =>
      obtain ⟨a, v⟩ := e
      by_cases ha : a = "master_secret"
      · subst ha
        have : (name == "master_secret") = false := by simpa using hn
        simpa [List.filter, List.lookup, this] using ih
      · have hb : (a != "master_secret") = true := by simpa using ha
        simp only [List.filter_cons, hb, if_true, List.lookup]
        split
        · rfl
        · exact ih

/-- An equality proof as written before: the answer for the link secret under `m1`. -/
def oldEqProof (b : Build) (x : EqProof) (m1 : Int) : Json :=
  .obj [("revealed_attrs", ofMap (ofBn b) x.revealed), ("a_prime", ofBn b x.aPrime), ("e", ofBn b x.e),
    ("v", ofBn b x.v), ("m1", ofBn b m1), ("m", ofMap (ofBn b) x.m), ("m2", ofBn b x.m2)]

/-- **C171** An old equality proof is read with the answer for the link secret under the name `master_secret`. -/
theorem old_proof_read (b b' : Build) (x : EqProof) (m1 : Int) (hr : Increasing (x.revealed.map Prod.fst))
    (hm : Distinct x.m) (h0 : m1 ≠ 0) :
    ∃ y, EqProof.fromJson b' (oldEqProof b x m1) = .ok y ∧ y.revealed = x.revealed ∧ y.aPrime = x.aPrime ∧ y.e = x.e ∧
      y.v = x.v ∧ y.m2 = x.m2 ∧ y.m.lookup "master_secret" = some m1 ∧
      (∀ name, name ≠ "master_secret" → y.m.lookup name = x.m.lookup name) ∧ Distinct y.m := by
  have h1 := roundTrip_bTreeMap (ofBn b) (readBn b') x.revealed hr (fun e _ => roundTrip_bn b b' e.2)
  have h2 := roundTrip_hashMap (ofBn b) (readBn b') x.m hm (fun e _ => roundTrip_bn b b' e.2)
  refine ⟨{ x with m := mapSet x.m "master_secret" m1 }, ?_, rfl, rfl, rfl, rfl, rfl,
    by simp [lookup_mapSet], fun name hn => by simp [lookup_mapSet, hn], keys_mapSet _ _ _ hm⟩
  simp [oldEqProof, EqProof.fromJson, fields, req, dflt, List.filter, roundTrip_bn, h1, h2, h0]

/-- **C171** The new format has no `m1`, and a zero there counts as none. -/
theorem old_proof_zero (b b' : Build) (x : EqProof) (hr : Increasing (x.revealed.map Prod.fst)) (hm : Distinct x.m) :
    EqProof.fromJson b' (oldEqProof b x 0) = .ok x ∧ EqProof.fromJson b' (x.toJson b) = .ok x := by
  have h1 := roundTrip_bTreeMap (ofBn b) (readBn b') x.revealed hr (fun e _ => roundTrip_bn b b' e.2)
  have h2 := roundTrip_hashMap (ofBn b) (readBn b') x.m hm (fun e _ => roundTrip_bn b b' e.2)
  refine ⟨?_, eqProof_round_trip b b' x hr hm⟩
  simp [oldEqProof, EqProof.fromJson, fields, req, dflt, List.filter, roundTrip_bn, h1, h2]

/-- Non-vacuity: the two formats of a key. -/
example : ∃ k', PrimaryPubKey.fromJson .portable (oldKey .native ⟨33, 4, 5, [("name", 7)], 6⟩ 9) = .ok k' ∧
    k'.r.lookup "master_secret" = some 9 ∧ k'.r.lookup "name" = some 7 := by
  obtain ⟨k', h1, -, -, -, -, h2, h3, -⟩ := old_key_read .native .portable ⟨33, 4, 5, [("name", 7)], 6⟩ 9
    (by simp [Distinct]) (by decide)
  exact ⟨k', h1, h2, by rw [h3 _ (by decide)]; rfl⟩

end Verif.CL
