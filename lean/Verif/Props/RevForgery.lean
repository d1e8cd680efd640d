import Verif.Props.SDHCount
import Verif.Props.CLRevocation
import Verif.Toy
/-!
# C220: revocation credentials cannot be forged
-/
set_option linter.unusedSectionVars false
set_option linter.unusedVariables false
set_option linter.unusedSimpArgs false
namespace Verif.CL.Rev.Forgery
open Verif.Forking

variable {F G1 G2 GT : Type} [Field F] [AddCommGroup G1] [Module F G1] [AddCommGroup G2] [Module F G2] [AddCommGroup GT] [Module F GT]

/-! ## Specification -/

/-- The values of the issuer that are the same in all runs: arithmetic of the build, size and kind of the registry, all random values but the secret `x` and the points
`h2`, `h1`, `g`. -/
structure Env (F G1 G2 : Type) where
  m : Overflow
  maxCredNum : Nat
  byDefault : Bool
  h0 : G1
  h : G1
  htilde : G1
  u : G2
  hCap : G2
  gDash : G2
  sk : F
  gamma : F

/-- what everybody sees at the beginning: the key, `z`, the registry and the tails -/
structure View (G1 G2 GT : Type) where
  pub : PubKey G1 G2
  z : GT
  reg : G2
  tails : List G2

/-- an order: a credential for a place, a context and a blinded secret (the number in it handed over in the clear), or another call on the registry -/
inductive Order (F : Type) where
  | issue (idx : Nat) (m2 vrPrime : F)
  | change (op : Op)

/-- what comes back: the credential, if one was ordered, the new registry and the published delta -/
abbrev Answer (F G1 G2 : Type) := Res String (Option (NonRevSig F G1 G2) × G2 × Option (Delta G2))

/-- A forger: what it orders next and the credential it finally puts forward, with a registry value and a witness. -/
structure Forger (F G1 G2 GT : Type) where
  ask : View G1 G2 GT → List (Answer F G1 G2) → Order F
  out : View G1 G2 GT → List (Answer F G1 G2) → NonRevSig F G1 G2 × G2 × G2

/-- the issuer at work, with the random numbers `c` and `vr''` -/
def answer (E : Env F G1 G2) (pub : PubKey G1 G2) (priv : PrivKey F) (tails : List G2) (reg : G2) (c vr : F) : Order F → Res String (Option (NonRevSig F G1 G2) × G2 × Option (Delta G2))
  | .issue idx m2 vrPrime => do
    let r ← newNonRevocationCredential E.m idx m2 (blindedRevocationSecret pub vrPrime) pub priv E.maxCredNum E.byDefault reg E.gamma tails vr c
    pure (some r.1, r.2.1, r.2.2)
  | .change op => do
    let r ← op.run E.m E.maxCredNum E.byDefault tails reg
    pure (none, r.1, r.2)

/-- the registry after a call -/
def after (reg : G2) : Answer F G1 G2 → G2
  | .ok r => r.2.1
  | _ => reg

/-- the registry and the answers after `n` orders -/
def session (E : Env F G1 G2) (A : Forger F G1 G2 GT) (V : View G1 G2 GT) (priv : PrivKey F) (c vr : Nat → F) : Nat → G2 × List (Answer F G1 G2)
  | 0 => (V.reg, [])
  | n + 1 =>
    let s := session E A V priv c vr n
    let a := answer E V.pub priv V.tails s.1 (c n) (vr n) (A.ask V s.2)
    (after s.1 a, s.2 ++ [a])

/-- the random values: `x`, the points `h2` (`none`), `h1`, `g`, and `c`, `vr''` for every order -/
abbrev Coins (F G1 : Type) (q : Nat) : Type := F × (Option (Fin 2) → G1) × (Fin q → F) × (Fin q → F)

/-- the keys -/
def keys (E : Env F G1 G2) {q : Nat} (ω : Coins F G1 q) : PubKey G1 G2 × PrivKey F :=
  newRevocationKeys (ω.2.1 (some 1)) E.h E.h0 (ω.2.1 (some 0)) (ω.2.1 none) E.htilde E.u E.hCap E.gDash ω.1 E.sk

/-- The forger wins: the holder's check accepts what it puts forward, for a place of the registry; and this is none of the credentials it got, as holders store them. -/
def Wins [DecidableEq GT] (E : Env F G1 G2) (e : G1 →ₗ[F] G2 →ₗ[F] GT) (q : Nat) (A : Forger F G1 G2 GT) (ω : Coins F G1 q) : Prop :=
  ∃ z reg gen V o, newRevocationRegistryDef E.m e (keys E ω).1 E.maxCredNum E.byDefault E.gamma = .ok (z, reg, gen) ∧
    V = ⟨(keys E ω).1, z, reg, collectTails gen⟩ ∧
    o = A.out V (session E A V (keys E ω).2 (SDH.ext ω.2.2.1) (SDH.ext ω.2.2.2) q).2 ∧
    testWitnessSignature e o.1 V.pub z o.2.1 o.2.2 = .ok () ∧ o.1.gI = (E.gamma ^ o.1.i) • V.pub.g ∧
    ∀ n < q, ∀ idx m2 vrPrime σ reg' d w,
      A.ask V (session E A V (keys E ω).2 (SDH.ext ω.2.2.1) (SDH.ext ω.2.2.2) n).2 = .issue idx m2 vrPrime →
      answer E V.pub (keys E ω).2 V.tails (session E A V (keys E ω).2 (SDH.ext ω.2.2.1) (SDH.ext ω.2.2.2) n).1 (SDH.ext ω.2.2.1 n) (SDH.ext ω.2.2.2 n)
        (.issue idx m2 vrPrime) = .ok (some σ, reg', d) →
      ¬ (o.1.c = (processNonRevocationCredential e σ vrPrime V.pub z reg' w).1.c ∧ o.1.vr = (processNonRevocationCredential e σ vrPrime V.pub z reg' w).1.vr ∧
        o.1.m2 = (processNonRevocationCredential e σ vrPrime V.pub z reg' w).1.m2 ∧ o.1.gI = (processNonRevocationCredential e σ vrPrime V.pub z reg' w).1.gI)

/-! ## The reduction -/

/-- the key from the points and `y` -/
def toPk (E : Env F G1 G2) (pub : SDH.Pub G1 G2 (Fin 2)) : PubKey G1 G2 :=
  { g := pub.h (some 1), gDash := E.gDash, h := E.h, h0 := E.h0, h1 := pub.h (some 0), h2 := pub.h none, htilde := E.htilde, hCap := E.hCap, u := E.u,
    pk := E.sk • pub.h (some 1), y := pub.w }

/-- what everybody sees, from the result of the setup -/
def ofDef (pk : PubKey G1 G2) : Res String (GT × G2 × TailsGen F G2) → Option (View G1 G2 GT)
  | .ok (z, reg, gen) => some ⟨pk, z, reg, collectTails gen⟩
  | _ => none

/-- what everybody sees, if there is a registry -/
def toView (E : Env F G1 G2) (e : G1 →ₗ[F] G2 →ₗ[F] GT) (pub : SDH.Pub G1 G2 (Fin 2)) : Option (View G1 G2 GT) :=
  ofDef (toPk E pub) (newRevocationRegistryDef E.m e (toPk E pub) E.maxCredNum E.byDefault E.gamma)

/-- the credential around a signature `(A, e, s)` -/
def cred (E : Env F G1 G2) (pub : PubKey G1 G2) (idx : Nat) (m2 : F) (σ : SDH.Sig F G1) : NonRevSig F G1 G2 :=
  { sigma := σ.A, c := σ.e, vr := σ.s, sigmaI := (E.sk + E.gamma ^ idx)⁻¹ • pub.gDash, uI := (E.gamma ^ idx) • pub.u, wgI := (E.gamma ^ idx) • pub.g,
    gI := (E.gamma ^ idx) • pub.g, i := idx, m2 := m2 }

/-- an answer, with a signature from elsewhere -/
def simAnswer (E : Env F G1 G2) (V : View G1 G2 GT) (reg : G2) (σ : Option (SDH.Sig F G1)) : Order F → Res String (Option (NonRevSig F G1 G2) × G2 × Option (Delta G2))
  | .issue idx m2 vrPrime => do
    let r ← registerIssued E.m reg E.maxCredNum idx E.byDefault V.tails
    pure (σ.map (cred E V.pub idx m2), r.1, r.2)
  | .change op => do
    let r ← op.run E.m E.maxCredNum E.byDefault V.tails reg
    pure (none, r.1, r.2)

def step (E : Env F G1 G2) (A : Forger F G1 G2 GT) (V : View G1 G2 GT) (s : G2 × List (Answer F G1 G2)) (σ : Option (SDH.Sig F G1)) : G2 × List (Answer F G1 G2) :=
  (after s.1 (simAnswer E V s.1 σ (A.ask V s.2)), s.2 ++ [simAnswer E V s.1 σ (A.ask V s.2)])

/-- the registry and the answers, from the signatures so far -/
def view (E : Env F G1 G2) (A : Forger F G1 G2 GT) (V : View G1 G2 GT) (l : List (Option (SDH.Sig F G1))) : G2 × List (Answer F G1 G2) := l.foldl (step E A V) (V.reg, [])

/-- a request, if the call went well -/
def ifOk {α β : Type} (b : β) : Res String α → Option β
  | .ok _ => some b
  | _ => none

/-- the signature an order needs -/
def needs (E : Env F G1 G2) (V : View G1 G2 GT) (reg : G2) : Order F → Option (SDH.Req F (Fin 2))
  | .issue idx m2 vrPrime => ifOk ⟨![m2, E.gamma ^ idx], vrPrime⟩ (registerIssued E.m reg E.maxCredNum idx E.byDefault V.tails)
  | .change _ => none

/-- The forger as a forger of signatures `(x + e) A = h0 + s h2 + m2 h1 + γ^i g`: the reduction runs the registry itself, with the numbers `γ` and `sk`. -/
def player (E : Env F G1 G2) (e : G1 →ₗ[F] G2 →ₗ[F] GT) (A : Forger F G1 G2 GT) : SDH.Forger F G1 G2 (Fin 2) where
  ask pub l := (toView E e pub).elim none fun V => needs E V (view E A V l).1 (A.ask V (view E A V l).2)
  out pub l := (toView E e pub).elim (⟨0, 0, 0⟩, 0) fun V =>
    (⟨(A.out V (view E A V l).2).1.sigma, (A.out V (view E A V l).2).1.c, (A.out V (view E A V l).2).1.vr⟩,
      ![(A.out V (view E A V l).2).1.m2, E.gamma ^ (A.out V (view E A V l).2).1.i])

theorem view_snoc (E : Env F G1 G2) (A : Forger F G1 G2 GT) (V : View G1 G2 GT) (l : List (Option (SDH.Sig F G1))) (σ : Option (SDH.Sig F G1)) :
    view E A V (l ++ [σ]) = step E A V (view E A V l) σ := by
  unfold view
  rw [List.foldl_append]
  rfl

section
variable (E : Env F G1 G2) (e : G1 →ₗ[F] G2 →ₗ[F] GT) (A : Forger F G1 G2 GT)

/-- the issuer's signature is one of the abstract game -/
theorem answer_eq (pub : SDH.Pub G1 G2 (Fin 2)) {V : View G1 G2 GT} (hV : toView E e pub = some V) (x : F) (c vr : Nat → F) (n : Nat) (reg : G2) (o : Order F) :
    answer E V.pub ⟨x, E.sk⟩ V.tails reg (c n) (vr n) o = simAnswer E V reg ((needs E V reg o).map (SDH.real E.h0 x pub c vr n)) o := by
  have hp : V.pub = toPk E pub := by
    unfold toView at hV
    generalize newRevocationRegistryDef E.m e (toPk E pub) E.maxCredNum E.byDefault E.gamma = r at hV
    match r, hV with
    | .ok (z, reg, gen), hV => cases hV; rfl
    | .err _, hV => cases hV
    | .panic, hV => cases hV
  cases o with
  | change op => rfl
  | issue idx m2 vrPrime =>
    unfold answer simAnswer newNonRevocationCredential needs
    dsimp only
    generalize registerIssued E.m reg E.maxCredNum idx E.byDefault V.tails = rr
    cases rr with
    | err t => rfl
    | panic => rfl
    | ok r =>
      obtain ⟨reg', d⟩ := r
      simp only [ifOk, Res.ok_bind, Option.map_some, Res.pure_eq, Res.ok.injEq, Prod.mk.injEq, Option.some.injEq, and_true]
      have hb : SDH.base E.h0 pub ![m2, E.gamma ^ idx] (vr n + vrPrime) =
          V.pub.h0 + m2 • V.pub.h1 + blindedRevocationSecret V.pub vrPrime + E.gamma ^ idx • V.pub.g + vr n • V.pub.h2 := by
        unfold SDH.base blindedRevocationSecret
        rw [hp, Fin.sum_univ_two]
        show E.h0 + (vr n + vrPrime) • pub.h none + (m2 • pub.h (some 0) + E.gamma ^ idx • pub.h (some 1)) =
          E.h0 + m2 • pub.h (some 0) + vrPrime • pub.h none + E.gamma ^ idx • pub.h (some 1) + vr n • pub.h none
        rw [add_smul]
        abel
      unfold cred SDH.real
      simp only [hb]

theorem player_ask (pub : SDH.Pub G1 G2 (Fin 2)) {V : View G1 G2 GT} (hV : toView E e pub = some V) (l : List (Option (SDH.Sig F G1))) :
    (player E e A).ask pub l = needs E V (view E A V l).1 (A.ask V (view E A V l).2) := by
  unfold player
  dsimp only
  rw [hV]
  rfl

theorem player_out (pub : SDH.Pub G1 G2 (Fin 2)) {V : View G1 G2 GT} (hV : toView E e pub = some V) (l : List (Option (SDH.Sig F G1))) :
    (player E e A).out pub l = (⟨(A.out V (view E A V l).2).1.sigma, (A.out V (view E A V l).2).1.c, (A.out V (view E A V l).2).1.vr⟩,
      ![(A.out V (view E A V l).2).1.m2, E.gamma ^ (A.out V (view E A V l).2).1.i]) := by
  unfold player
  dsimp only
  rw [hV]
  rfl

theorem view_session (pub : SDH.Pub G1 G2 (Fin 2)) {V : View G1 G2 GT} (hV : toView E e pub = some V) (x : F) (c vr : Nat → F) : ∀ n : Nat,
    view E A V (SDH.hist (player E e A) pub (SDH.real E.h0 x pub c vr) n) = session E A V ⟨x, E.sk⟩ c vr n
  | 0 => rfl
  | n + 1 => by
    have ih := view_session pub hV x c vr n
    have hask : (player E e A).ask pub (SDH.hist (player E e A) pub (SDH.real E.h0 x pub c vr) n) =
        needs E V (session E A V ⟨x, E.sk⟩ c vr n).1 (A.ask V (session E A V ⟨x, E.sk⟩ c vr n).2) := by
      rw [player_ask E e A pub hV, ih]
    unfold SDH.hist
    rw [view_snoc, ih, hask]
    unfold step
    conv_rhs => unfold session
    dsimp only
    rw [answer_eq E e pub hV]

theorem asked_session (pub : SDH.Pub G1 G2 (Fin 2)) {V : View G1 G2 GT} (hV : toView E e pub = some V) (x : F) (c vr : Nat → F) (n : Nat) :
    SDH.asked (player E e A) pub (SDH.real E.h0 x pub c vr) n = needs E V (session E A V ⟨x, E.sk⟩ c vr n).1 (A.ask V (session E A V ⟨x, E.sk⟩ c vr n).2) := by
  unfold SDH.asked
  rw [player_ask E e A pub hV, view_session E e A pub hV x c vr n]

/-- the coins as those of the abstract game -/
def lower (log : G1 → F) {q : Nat} (ω : Coins F G1 q) : SDH.Coins F (Fin 2) q := (ω.1, fun j => log (ω.2.1 j), ω.2.2.1, ω.2.2.2)

/-- what is asked for, and the answer to it -/
theorem needs_some {V : View G1 G2 GT} {reg : G2} {o : Order F} {r : SDH.Req F (Fin 2)} (h : needs E V reg o = some r) : ∃ idx m2 vrPrime reg' d,
    o = .issue idx m2 vrPrime ∧ r = ⟨![m2, E.gamma ^ idx], vrPrime⟩ ∧ ∀ σ, simAnswer E V reg (some σ) o = .ok (some (cred E V.pub idx m2 σ), reg', d) := by
  cases o with
  | change op => cases h
  | issue idx m2 vrPrime =>
    unfold needs at h
    dsimp only at h
    unfold simAnswer
    dsimp only
    generalize registerIssued E.m reg E.maxCredNum idx E.byDefault V.tails = rr at h
    match rr, h with
    | .ok (reg', d), h =>
      cases h
      exact ⟨idx, m2, vrPrime, reg', d, rfl, rfl, fun σ => rfl⟩
    | .err _, h => cases h
    | .panic, h => cases h

theorem pub_lower (log : G1 → F) (hlog : ∀ p, log p • E.h0 = p) {q : Nat} (ω : Coins F G1 q) : SDH.pubOf E.h0 E.hCap (lower log ω) = ⟨ω.2.1, ω.1 • E.hCap⟩ := by
  unfold SDH.pubOf lower
  dsimp only
  have : (fun j => log (ω.2.1 j) • E.h0) = ω.2.1 := funext fun j => hlog _
  rw [this]

variable [DecidableEq GT]

theorem wins_abstract (hnd : ∀ a : G1, e a E.hCap = 0 → a = 0) (log : G1 → F) (hlog : ∀ p, log p • E.h0 = p) {q : Nat} (ω : Coins F G1 q) (h : Wins E e q A ω) :
    SDH.Win E.h0 E.hCap (player E e A) (lower log ω) := by
  obtain ⟨z, reg, gen, V, o, hdef, rfl, rfl, htest, hgI, hnew⟩ := h
  have hpub : SDH.pubOf E.h0 E.hCap (lower log ω) = ⟨ω.2.1, ω.1 • E.hCap⟩ := pub_lower E log hlog ω
  have hpk : toPk E ⟨ω.2.1, ω.1 • E.hCap⟩ = (keys E ω).1 := rfl
  have hV : toView E e ⟨ω.2.1, ω.1 • E.hCap⟩ = some ⟨(keys E ω).1, z, reg, collectTails gen⟩ := by
    unfold toView
    rw [hpk, hdef]
    rfl
  have hsk : (keys E ω).2 = ⟨ω.1, E.sk⟩ := rfl
  rw [hsk] at htest hgI hnew
  unfold SDH.Win SDH.Wins SDH.signer
  rw [hpub]
  have e1 : (lower log ω).1 = ω.1 := rfl
  have e2 : (lower log ω).2.2.1 = ω.2.2.1 := rfl
  have e3 : (lower log ω).2.2.2 = ω.2.2.2 := rfl
  rw [e1, e2, e3]
  have hout : SDH.output (player E e A) ⟨ω.2.1, ω.1 • E.hCap⟩ (SDH.real E.h0 ω.1 ⟨ω.2.1, ω.1 • E.hCap⟩ (SDH.ext ω.2.2.1) (SDH.ext ω.2.2.2)) q =
      (let o := (A.out ⟨(keys E ω).1, z, reg, collectTails gen⟩
        (session E A ⟨(keys E ω).1, z, reg, collectTails gen⟩ ⟨ω.1, E.sk⟩ (SDH.ext ω.2.2.1) (SDH.ext ω.2.2.2) q).2).1
       (⟨o.sigma, o.c, o.vr⟩, ![o.m2, E.gamma ^ o.i])) := by
    unfold SDH.output
    rw [player_out E e A _ hV, view_session E e A _ hV]
  rw [hout]
  dsimp only
  generalize (A.out ⟨(keys E ω).1, z, reg, collectTails gen⟩
        (session E A ⟨(keys E ω).1, z, reg, collectTails gen⟩ ⟨ω.1, E.sk⟩ (SDH.ext ω.2.2.1) (SDH.ext ω.2.2.2) q).2) = o at *
  constructor
  · unfold testWitnessSignature at htest
    split at htest
    · cases htest
    split at htest
    · cases htest
    split at htest
    · cases htest
    rename_i h3
    rw [not_not] at h3
    unfold SDH.Valid SDH.base
    have h4 : e ((ω.1 + o.1.c) • o.1.sigma - (E.h0 + o.1.vr • ω.2.1 none + (o.1.m2 • ω.2.1 (some 0) + E.gamma ^ o.1.i • ω.2.1 (some 1)))) E.hCap = 0 := by
      have h5 : e o.1.sigma (ω.1 • E.hCap + o.1.c • E.hCap) = e (E.h0 + o.1.m2 • ω.2.1 (some 0) + o.1.vr • ω.2.1 none + o.1.gI) E.hCap := h3
      have h6 : o.1.gI = E.gamma ^ o.1.i • ω.2.1 (some 1) := hgI
      rw [h6, ← add_smul, map_smul] at h5
      rw [map_sub, LinearMap.sub_apply, map_smul, LinearMap.smul_apply, h5, ← LinearMap.sub_apply, ← map_sub]
      have : E.h0 + o.1.m2 • ω.2.1 (some 0) + o.1.vr • ω.2.1 none + E.gamma ^ o.1.i • ω.2.1 (some 1) -
          (E.h0 + o.1.vr • ω.2.1 none + (o.1.m2 • ω.2.1 (some 0) + E.gamma ^ o.1.i • ω.2.1 (some 1))) = 0 := by abel
      rw [this, map_zero, LinearMap.zero_apply]
    have h7 := sub_eq_zero.1 (hnd _ h4)
    simpa [Fin.sum_univ_two] using h7
  · rintro n hn r hr ⟨k1, k2, k3⟩
    rw [asked_session E e A _ hV] at hr
    have hans := answer_eq E e _ hV ω.1 (SDH.ext ω.2.2.1) (SDH.ext ω.2.2.2) n
      (session E A ⟨(keys E ω).1, z, reg, collectTails gen⟩ ⟨ω.1, E.sk⟩ (SDH.ext ω.2.2.1) (SDH.ext ω.2.2.2) n).1
      (A.ask ⟨(keys E ω).1, z, reg, collectTails gen⟩ (session E A ⟨(keys E ω).1, z, reg, collectTails gen⟩ ⟨ω.1, E.sk⟩ (SDH.ext ω.2.2.1) (SDH.ext ω.2.2.2) n).2)
    obtain ⟨idx, m2, vrPrime, reg', d, ho, hr', hsim⟩ := needs_some E hr
    rw [hr, Option.map_some, hsim] at hans
    have hn' := hnew n hn idx m2 vrPrime _ reg' d 0 ho (ho ▸ hans)
    subst hr'
    refine hn' ⟨k1, ?_, ?_, ?_⟩
    · exact k2.trans (add_comm _ _)
    · exact congrFun k3 0
    · rw [hgI, show E.gamma ^ o.1.i = E.gamma ^ idx from congrFun k3 1]
      rfl

/-- **C220** A forger of revocation credentials solves the strong Diffie-Hellman problem.  Let a forger that knows what is in its blinded secrets win with probability `ε`
after `q` calls of the issuer.  Then `Solves1` and `Solves2`, which run it with keys and answers made from `h0, x h0, …, x^(q+1) h0` and `x hCap` only, find `c` and
`(x + c)⁻¹ h0` for a random `x` with probabilities that add up to at least `ε - (q² + 3 q + 3) / |F|`. -/
theorem revocation_credentials_unforgeable [Fintype F] [Fintype G1] [DecidableEq F] [DecidableEq G1] (hnd : ∀ a : G1, e a E.hCap = 0 → a = 0)
    (hg : Function.Bijective fun c : F => c • E.h0) (q : Nat) :
    pr (Wins E e q A) ≤ pr (SDH.Solves1 E.h0 E.hCap q (player E e A)) + pr (SDH.Solves2 E.h0 E.hCap q (player E e A)) +
      (q * q + 3 * q + 3) / Fintype.card F := by
  have hF : (0 : ℚ) < Fintype.card F := by exact_mod_cast Fintype.card_pos
  obtain ⟨log, hl, hr⟩ := Function.bijective_iff_has_inverse.1 hg
  have hg0 : E.h0 ≠ 0 := by
    intro h
    have : (0 : F) = 1 := hg.1 (by dsimp only; rw [h, smul_zero, smul_zero])
    exact zero_ne_one this
  have hbij : Function.Bijective (lower log : Coins F G1 q → SDH.Coins F (Fin 2) q) := by
    refine Function.bijective_iff_has_inverse.2 ⟨fun ω => (ω.1, fun j => ω.2.1 j • E.h0, ω.2.2.1, ω.2.2.2), fun ω => ?_, fun ω => ?_⟩
    · unfold lower
      dsimp only
      have : (fun j => log (ω.2.1 j) • E.h0) = ω.2.1 := funext fun j => hr _
      rw [this]
    · unfold lower
      dsimp only
      have : (fun j => log (ω.2.1 j • E.h0)) = ω.2.1 := funext fun j => hl _
      rw [this]
  have h1 : pr (Wins E e q A) ≤ pr (fun ω : Coins F G1 q =>
      (((SDH.Win E.h0 E.hCap (player E e A) (lower log ω) ∧ (lower log ω).2.1 none ≠ 0 ∧ ∀ i, (lower log ω).1 + (lower log ω).2.2.1 i ≠ 0) ∨
      (∃ i, (lower log ω).1 + (lower log ω).2.2.1 i = 0)) ∨ (lower log ω).2.1 none = 0)) := by
    refine pr_mono fun ω hω => ?_
    by_cases hz : (lower log ω).2.1 none = 0
    · exact Or.inr hz
    by_cases hp : ∃ i, (lower log ω).1 + (lower log ω).2.2.1 i = 0
    · exact Or.inl (Or.inr hp)
    · push Not at hp
      exact Or.inl (Or.inl ⟨wins_abstract E e A hnd log hr ω hω, hz, hp⟩)
  have h2 := pr_or (fun ω : SDH.Coins F (Fin 2) q => SDH.Win E.h0 E.hCap (player E e A) ω ∧ ω.2.1 none ≠ 0 ∧ ∀ i, ω.1 + ω.2.2.1 i ≠ 0)
    (fun ω => ∃ i, ω.1 + ω.2.2.1 i = 0)
  have h2' := pr_or (fun ω : SDH.Coins F (Fin 2) q => (SDH.Win E.h0 E.hCap (player E e A) ω ∧ ω.2.1 none ≠ 0 ∧ ∀ i, ω.1 + ω.2.2.1 i ≠ 0) ∨
    (∃ i, ω.1 + ω.2.2.1 i = 0)) (fun ω => ω.2.1 none = 0)
  have h3 := SDH.forgery_solves E.h0 E.hCap (q := q) hg0 (player E e A)
  have h4 : pr (fun ω : SDH.Coins F (Fin 2) q => ∃ i, ω.1 + ω.2.2.1 i = 0) ≤ q * (1 / Fintype.card F) :=
    SDH.pr_exists_fin _ _ fun i => SDH.pr_pole i
  have h6 : pr (fun ω : SDH.Coins F (Fin 2) q => ω.2.1 none = 0) ≤ 1 / Fintype.card F := by
    refine SDH.pr_line (fun ω : SDH.Coins F (Fin 2) q => ω.2.1 none = 0) (fun ω v => (ω.1, Function.update ω.2.1 none v, ω.2.2)) ?_
    rintro ⟨x, H, r⟩ ⟨x', H', r'⟩ ha hb v v' hab
    simp only [Prod.mk.injEq] at hab ha hb
    obtain ⟨rfl, hH, rfl⟩ := hab
    have hv : v = v' := by simpa using congrFun hH none
    refine ⟨?_, hv⟩
    have : H = H' := by
      funext j
      by_cases hj : j = none
      · subst hj; exact ha.trans hb.symm
      · simpa [Function.update_of_ne hj] using congrFun hH j
    rw [this]
  have h5 := pr_bijective (lower log : Coins F G1 q → SDH.Coins F (Fin 2) q) hbij
    (fun ω => (((SDH.Win E.h0 E.hCap (player E e A) ω ∧ ω.2.1 none ≠ 0 ∧ ∀ i, ω.1 + ω.2.2.1 i ≠ 0) ∨ (∃ i, ω.1 + ω.2.2.1 i = 0)) ∨ ω.2.1 none = 0))
  rw [h5] at h1
  have hdiv : ((q : ℚ) * q + 3 * q + 3) / Fintype.card F = (q * q + 2 * q + 2) / Fintype.card F + q * (1 / Fintype.card F) + 1 / Fintype.card F := by
    field_simp
    ring
  rw [hdiv]
  linarith

end
/-! ### Non-vacuity over the field with 101 elements, where the points are their own logarithms -/
namespace Example
open Verif.Toy Finset

/-- three places, all issued at the beginning; the issuer's numbers are `sk = 6`, `γ = 10` -/
def env : Env (ZMod 101) (ZMod 101) (ZMod 101) := ⟨.checked, 3, true, 1, 2, 6, 7, 1, 9, 6, 10⟩

/-- orders a credential for place 2 and context 11 and puts forward one for context 12, made with `x`, which it reads off `y` -/
def insider : Forger (ZMod 101) (ZMod 101) (ZMod 101) (ZMod 101) where
  ask _ _ := .issue 2 11 12
  out V _ := (⟨(V.pub.y + 1)⁻¹ • (V.pub.h0 + (12 : ZMod 101) • V.pub.h1 + (3 : ZMod 101) • V.pub.h2 + (10 ^ 2 : ZMod 101) • V.pub.g), 1, 3,
    (6 + 10 ^ 2 : ZMod 101)⁻¹ • V.pub.gDash, (10 ^ 2 : ZMod 101) • V.pub.u, (10 ^ 2 : ZMod 101) • V.pub.g, (10 ^ 2 : ZMod 101) • V.pub.g, 2, 12⟩,
    V.reg, witOf 3 (10 : ZMod 101) (9 : ZMod 101) {1, 2, 3} 2)

theorem insider_wins (ω : Coins (ZMod 101) (ZMod 101) 1) (hp : ω.1 + 1 ≠ 0) : Wins env toyE 1 insider ω := by
  obtain ⟨gen, -, h⟩ := registry_created .checked toyE (keys env ω).1 3 true (10 : ZMod 101) (by norm_num)
  refine ⟨_, _, gen, _, _, h, rfl, rfl, ?_, rfl, ?_⟩
  · unfold testWitnessSignature
    rw [if_neg, if_neg, if_neg]
    · rw [not_not]
      dsimp only [insider, keys, newRevocationKeys, env]
      simp only [toyE_apply, smul_eq_mul, mul_one, one_mul]
      rw [mul_right_comm, inv_mul_cancel₀ hp, one_mul]
    · rw [not_not]
      dsimp only [insider, keys, newRevocationKeys, env]
      have h9 : ((6 : ZMod 101) + 10 ^ 2) * (6 + 10 ^ 2)⁻¹ = 1 := mul_inv_cancel₀ (by decide +kernel)
      simp only [toyE_apply, smul_eq_mul]
      linear_combination (ω.2.1 (some 1) * 9) * h9
    · rw [not_not]
      have h2 := acc_pairing toyE (keys env ω).1.g (9 : ZMod 101) 3 10 {1, 2, 3} (by decide) 2
      rw [if_pos (by decide)] at h2
      exact h2
  · intro n hn idx m2 vrPrime σ reg' d w ho hans hsame
    obtain ⟨-, -, hm, -⟩ := hsame
    have hm2 : m2 = 11 := by
      dsimp only [insider] at ho
      cases ho
      rfl
    unfold answer at hans
    dsimp only at hans
    obtain ⟨r, hr, h3⟩ := Res.bind_eq_ok.1 hans
    unfold newNonRevocationCredential at hr
    obtain ⟨⟨r1, r2⟩, -, h4⟩ := Res.bind_eq_ok.1 hr
    dsimp only at h4
    rw [Res.pure_eq, Res.ok.injEq] at h3 h4
    have h5 : σ.m2 = m2 := by
      rw [← h4] at h3
      dsimp only at h3
      simp only [Prod.mk.injEq, Option.some.injEq] at h3
      rw [← h3.1]
    have h6 : (12 : ZMod 101) = σ.m2 := hm
    rw [h5, hm2] at h6
    exact absurd h6 (by decide +kernel)

/-- the hypotheses of C220 are met, with a forger that wins for most coins -/
example : pr (Wins env toyE 1 insider) ≤ pr (SDH.Solves1 (1 : ZMod 101) (1 : ZMod 101) 1 (player env toyE insider)) +
    pr (SDH.Solves2 (1 : ZMod 101) (1 : ZMod 101) 1 (player env toyE insider)) + (1 * 1 + 3 * 1 + 3) / Fintype.card (ZMod 101) := by
  have h := revocation_credentials_unforgeable env toyE insider (fun a h => by simpa [env, toyE_apply] using h)
    (by simp [env, Function.bijective_id]) 1
  simpa [env] using h

end Example

end Verif.CL.Rev.Forgery
