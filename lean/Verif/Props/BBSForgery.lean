import Verif.Props.SDHCount
import Verif.Props.BBSMore
/-!
# BBS+ signatures cannot be forged if the strong Diffie-Hellman problem is hard (C208)

The signer of the game is the model of the code: `generate` makes the key, `Signature::new` and `blind_sign` answer the requests.  A forger
sees the public key and the answers to its requests, one after the other, and finally outputs a signature and messages.  It wins if
`Signature::verify` accepts them and they are not a signature and the messages it was given.
-/
set_option linter.unusedSectionVars false
set_option linter.unusedVariables false
set_option linter.unusedSimpArgs false
namespace Verif.BBS.Forgery
open Verif Verif.PoK Verif.BBS Verif.Forking

/-! ## The game -/

/-- what a holder asks the signer for: a signature on messages, or a blind signature on a commitment and known messages.  With a
commitment the forger names what it contains (the blinding factor and the hidden messages); the signer does not see that. -/
inductive Order (F G1 : Type) where
  | direct (messages : List F)
  | blind (ctx : BlindCtx F G1) (known : List (Nat × F)) (nonce : F) (blinding : F) (hidden : List F)

/-- a forger: what it orders next and what it finally outputs, from the public key and the answers so far (errors and crashes are
answers too) -/
structure Forger (F G1 G2 : Type) where
  ask : PublicKey G1 G2 → List (Res Error (Signature F G1)) → Order F G1
  out : PublicKey G1 G2 → List (Res Error (Signature F G1)) → Signature F G1 × List F

section
variable {F G1 G2 GT : Type} [Field F] [AddCommGroup G1] [Module F G1] [AddCommGroup G2] [Module F G2]
  [AddCommGroup GT] [Module F GT] [DecidableEq F] [DecidableEq G1] [DecidableEq G2] [DecidableEq GT]
variable (P : Params F G1 G2 GT)

/-- signature.rs:251-271 `Signature::new` and issuer.rs:43-59 `blind_sign` -/
def answer (pk : PublicKey G1 G2) (x e s : F) : Order F G1 → Res Error (Signature F G1)
  | .direct messages => sigNew P messages x pk e s
  | .blind ctx known nonce _ _ => blindSign P ctx known x pk nonce e s

/-- the answers to the first `n` orders; `e i`, `s i` are the random numbers of order `i` -/
def session (A : Forger F G1 G2) (pk : PublicKey G1 G2) (x : F) (e s : Nat → F) : Nat → List (Res Error (Signature F G1))
  | 0 => []
  | n + 1 => session A pk x e s n ++ [answer P pk x (e n) (s n) (A.ask pk (session A pk x e s n))]

/-- the number the holder adds to `s` (signature.rs:193-201) -/
def blindingOf : Order F G1 → F
  | .direct _ => 0
  | .blind _ _ _ blinding _ => blinding

/-- the message at position `j` that the signature is for; positions without a message count as zero -/
def signed (j : Nat) : Order F G1 → F
  | .direct messages => messages.getD j 0
  | .blind _ known _ _ hidden => hidden.getD j 0 + ((known.filter (fun p => p.1 == j)).map (·.2)).sum

/-- the forger knows what is in its commitments -/
def Opens (pk : PublicKey G1 G2) : Order F G1 → Prop
  | .direct _ => True
  | .blind ctx _ _ blinding hidden => ctx.commitment = blinding • pk.h0 + msm pk.h hidden

/-- the coins of the game: the secret key, the generators of the public key, and `e`, `s` of every order -/
abbrev Coins (F G1 : Type) (n q : Nat) : Type := F × (Option (Fin n) → G1) × (Fin q → F) × (Fin q → F)

/-- The forger wins against a freshly generated key for `n` messages: its output verifies, and for every order that was answered with a
signature, it is not the (unblinded) signature together with the signed messages. -/
def Wins (n q : Nat) (A : Forger F G1 G2) (ω : Coins F G1 n q) : Prop :=
  ∃ pk x, generate P n ω.1 (ω.2.1 none :: List.ofFn fun i => ω.2.1 (some i)) = .ok (pk, x) ∧
    let hist := session P A pk x (SDH.ext ω.2.2.1) (SDH.ext ω.2.2.2)
    let o := A.out pk (hist q)
    o.1.verify P o.2 pk = .ok true ∧
    ∀ i < q, ∀ σ, answer P pk x (SDH.ext ω.2.2.1 i) (SDH.ext ω.2.2.2 i) (A.ask pk (hist i)) = .ok σ →
      ¬ (o.1 = σ.unblind (blindingOf (A.ask pk (hist i))) ∧ ∀ j < n, o.2[j]? = some (signed j (A.ask pk (hist i))))

/-- The same with the equation of signatures instead of `Signature::verify`, which refuses `A = 0`, `e = 0` and `s = 0`. -/
def WinsEq (n q : Nat) (A : Forger F G1 G2) (ω : Coins F G1 n q) : Prop :=
  ∃ pk x, generate P n ω.1 (ω.2.1 none :: List.ofFn fun i => ω.2.1 (some i)) = .ok (pk, x) ∧ WellFormed pk ∧
    let hist := session P A pk x (SDH.ext ω.2.2.1) (SDH.ext ω.2.2.2)
    let o := A.out pk (hist q)
    Valid P x pk o.1.a o.1.e o.1.s o.2 ∧
    ∀ i < q, ∀ σ, answer P pk x (SDH.ext ω.2.2.1 i) (SDH.ext ω.2.2.2 i) (A.ask pk (hist i)) = .ok σ →
      ¬ (o.1 = σ.unblind (blindingOf (A.ask pk (hist i))) ∧ ∀ j < n, o.2[j]? = some (signed j (A.ask pk (hist i))))

theorem generate_ok {n : Nat} {x : F} {hs : List G1} {pk : PublicKey G1 G2} {x' : F} (h : generate P n x hs = .ok (pk, x')) :
    x' = x ∧ pk.w = x • P.g2 := by
  unfold generate at h
  split at h
  · exact absurd h (by simp)
  cases hs with
  | nil => exact absurd h (by simp)
  | cons h0 hs =>
    obtain ⟨hpk, hx⟩ := Prod.mk.inj (Res.ok.inj h)
    exact ⟨hx.symm, by rw [← hpk]⟩

theorem wins_eq (hnd : Nondeg P) {n q : Nat} (A : Forger F G1 G2) (ω : Coins F G1 n q) (h : Wins P n q A ω) : WinsEq P n q A ω := by
  obtain ⟨pk, x, hgen, hver, hnew⟩ := h
  obtain ⟨hx, hw⟩ := generate_ok P hgen
  rw [bbs_verify_iff P hnd _ _ pk x (by rw [hw, hx])] at hver
  obtain ⟨hwf, _, hv⟩ := hver
  exact ⟨pk, x, hgen, hwf, hv, hnew⟩

/-! ## The forger as a player of the abstract game -/

variable {n q : Nat}

/-- the public key -/
def toPk (pub : SDH.Pub G1 G2 (Fin n)) : PublicKey G1 G2 := ⟨pub.h none, List.ofFn fun i => pub.h (some i), pub.w⟩

/-- what the signer answers, up to the signature -/
def probe (pk : PublicKey G1 G2) (o : Order F G1) : Res Error (Signature F G1) := answer P pk 1 0 0 o

/-- the forger's view from the signatures -/
def view (A : Forger F G1 G2) (pk : PublicKey G1 G2) : List (Option (SDH.Sig F G1)) → List (Res Error (Signature F G1)) :=
  List.foldl (fun h a => h ++ [probe P pk (A.ask pk h) >>= fun _ => match a with
    | some σ => Res.ok ⟨σ.A, σ.e, σ.s⟩
    | none => .panic]) []

def player (n : Nat) (A : Forger F G1 G2) : SDH.Forger F G1 G2 (Fin n) where
  ask := fun pub l => match probe P (toPk pub) (A.ask (toPk pub) (view P A (toPk pub) l)) with
    | .ok _ => some ⟨fun j => signed j (A.ask (toPk pub) (view P A (toPk pub) l)), blindingOf (A.ask (toPk pub) (view P A (toPk pub) l))⟩
    | _ => none
  out := fun pub l =>
    let o := A.out (toPk pub) (view P A (toPk pub) l)
    (⟨o.1.a, o.1.e, o.1.s⟩, fun j => o.2.getD j 0)

theorem player_ask (A : Forger F G1 G2) (pub : SDH.Pub G1 G2 (Fin n)) (l : List (Option (SDH.Sig F G1))) (v : List (Res Error (Signature F G1)))
    (hv : view P A (toPk pub) l = v) : (player P n A).ask pub l = match probe P (toPk pub) (A.ask (toPk pub) v) with
    | .ok _ => some ⟨fun j => signed j (A.ask (toPk pub) v), blindingOf (A.ask (toPk pub) v)⟩
    | _ => none := by
  rw [← hv]
  rfl

theorem player_out (A : Forger F G1 G2) (pub : SDH.Pub G1 G2 (Fin n)) (l : List (Option (SDH.Sig F G1))) (v : List (Res Error (Signature F G1)))
    (hv : view P A (toPk pub) l = v) : (player P n A).out pub l =
      ((⟨(A.out (toPk pub) v).1.a, (A.out (toPk pub) v).1.e, (A.out (toPk pub) v).1.s⟩ : SDH.Sig F G1), fun j : Fin n => (A.out (toPk pub) v).2.getD j 0) := by
  rw [← hv]
  rfl

theorem msm_ofFn : ∀ (n : Nat) (h : Fin n → G1) (ms : List F), msm (List.ofFn h) ms = ∑ j : Fin n, ms.getD j 0 • h j
  | 0, h, ms => by simp
  | n + 1, h, [] => by
    rw [msm_nil_right]
    symm
    refine Finset.sum_eq_zero fun j _ => ?_
    rw [List.getD_nil, zero_smul]
  | n + 1, h, m :: ms => by
    rw [List.ofFn_succ, msm_cons, msm_ofFn n _ ms, Fin.sum_univ_succ]
    rfl

theorem msm_take (bs : List G1) (ms : List F) :
    msm (bs.take (Nat.min bs.length ms.length)) (ms.take (Nat.min bs.length ms.length)) = msm bs ms := by
  unfold msm
  rw [← List.take_zipWith]
  congr 1
  refine List.take_of_length_le ?_
  rw [List.length_zipWith]

theorem lookup_sum (h : Fin n → G1) : ∀ (known : List (Nat × F)) (bs : List G1), lookupBases (List.ofFn h) known = .ok bs →
    msm bs (known.map (·.2)) = ∑ j : Fin n, ((known.filter (fun p => p.1 == (j : Nat))).map (·.2)).sum • h j
  | [], bs, hb => by
    simp
  | p :: ps, bs, hb => by
    unfold lookupBases at hb
    obtain ⟨b, h1, hb⟩ := Res.bind_eq_ok.1 hb
    obtain ⟨bs', h2, hb⟩ := Res.bind_eq_ok.1 hb
    rw [Res.pure_eq] at hb
    have hb := (Res.ok.inj hb).symm
    subst hb
    have ih := lookup_sum h ps bs' h2
    have hlt : p.1 < n := by
      by_contra hge
      rw [List.getElem?_eq_none (by rw [List.length_ofFn]; omega)] at h1
      exact absurd h1 (by simp [Res.unwrap])
    have hbb : b = h ⟨p.1, hlt⟩ := by
      rw [List.getElem?_eq_getElem (by rw [List.length_ofFn]; exact hlt), List.getElem_ofFn] at h1
      exact (Res.ok.inj h1).symm
    rw [List.map_cons, msm_cons, ih, hbb]
    have hterm : ∀ j : Fin n, (((p :: ps).filter (fun p => p.1 == (j : Nat))).map (·.2)).sum • h j =
        (if j = ⟨p.1, hlt⟩ then p.2 • h j else 0) + ((ps.filter (fun p => p.1 == (j : Nat))).map (·.2)).sum • h j := by
      intro j
      by_cases hj : j = ⟨p.1, hlt⟩
      · rw [if_pos hj, List.filter_cons_of_pos (by rw [hj]; exact beq_self_eq_true _), List.map_cons, List.sum_cons, add_smul]
      · rw [if_neg hj, List.filter_cons_of_neg (by
          rw [beq_iff_eq]
          intro hp
          exact hj (Fin.ext hp.symm)), zero_add]
    rw [Finset.sum_congr rfl fun j _ => hterm j, Finset.sum_add_distrib, Finset.sum_ite_eq' Finset.univ, if_pos (Finset.mem_univ _)]

/-- Every answer is the same up to the signature, and the signature is for the signed messages. -/
theorem answer_eq (pub : SDH.Pub G1 G2 (Fin n)) (x e s : F) (hx : x ≠ 0) (hxe : x + e ≠ 0) (o : Order F G1) (ho : Opens (toPk pub) o) :
    answer P (toPk pub) x e s o = probe P (toPk pub) o >>= fun _ =>
      .ok ⟨(x + e)⁻¹ • SDH.base P.g1 pub (fun j => signed j o) (s + blindingOf o), e, s⟩ := by
  have h10 : (1 : F) + 0 ≠ 0 := by rw [add_zero]; exact one_ne_zero
  cases o with
  | direct ms =>
    unfold probe answer
    dsimp only
    unfold sigNew validateSk
    rw [if_neg hx, if_neg one_ne_zero, if_neg hxe, if_neg h10]
    by_cases hl : ms.length > (toPk pub).h.length
    · rw [if_pos hl, if_pos hl]; rfl
    · rw [if_neg hl, if_neg hl, Res.ok_bind, Res.ok_bind]
      cases hv : (toPk pub).validate with
      | err e' => rfl
      | panic => rfl
      | ok u =>
        rw [Res.ok_bind, Res.ok_bind, Res.ok_bind]
        congr 3
        unfold computeB SDH.base
        dsimp only
        rw [msm_cons, msm_cons, msm_take, one_smul, ← add_assoc, toPk, msm_ofFn]
        dsimp only [blindingOf, signed]
        rw [add_zero]
  | blind ctx known nonce blinding hidden =>
    unfold probe answer
    dsimp only
    unfold blindSign
    cases hc : ctx.verify P (known.map (·.1)) (toPk pub) nonce with
    | err e' => rfl
    | panic => rfl
    | ok b =>
      rw [Res.ok_bind, Res.ok_bind]
      by_cases hb : b = true
      · rw [if_pos hb, if_pos hb]
        unfold blindSigNew validateSk
        rw [if_neg hx, if_neg one_ne_zero]
        by_cases hl : known.length > (toPk pub).h.length
        · rw [if_pos hl, if_pos hl]; rfl
        · rw [if_neg hl, if_neg hl, Res.ok_bind, Res.ok_bind]
          cases hv : (toPk pub).validate with
          | err e' => rfl
          | panic => rfl
          | ok u =>
            rw [Res.ok_bind, Res.ok_bind]
            cases hk : lookupBases (toPk pub).h known with
            | err e' => rfl
            | panic => rfl
            | ok bs =>
              rw [Res.ok_bind, Res.ok_bind]
              dsimp only
              rw [if_neg hxe, if_neg h10, Res.ok_bind]
              congr 3
              unfold SDH.base
              rw [msm_cons, msm_cons, msm_cons, one_smul, one_smul, lookup_sum _ known bs hk, ho]
              dsimp only [blindingOf, signed, toPk]
              rw [msm_ofFn]
              simp only [add_smul, Finset.sum_add_distrib]
              abel
      · rw [if_neg hb, if_neg hb]; rfl

theorem view_snoc (A : Forger F G1 G2) (pk : PublicKey G1 G2) (l : List (Option (SDH.Sig F G1))) (a : Option (SDH.Sig F G1)) :
    view P A pk (l ++ [a]) = view P A pk l ++ [probe P pk (A.ask pk (view P A pk l)) >>= fun _ => match a with
    | some σ => Res.ok ⟨σ.A, σ.e, σ.s⟩
    | none => .panic] := by
  unfold view
  rw [List.foldl_append]
  rfl

/-- the forger sees in the abstract game what it sees in the session -/
theorem view_session (A : Forger F G1 G2) (pub : SDH.Pub G1 G2 (Fin n)) (hA : ∀ l, Opens (toPk pub) (A.ask (toPk pub) l)) (x : F)
    (e s : Nat → F) (hx : x ≠ 0) : ∀ m, (∀ i < m, x + e i ≠ 0) →
    view P A (toPk pub) (SDH.hist (player P n A) pub (SDH.real P.g1 x pub e s) m) = session P A (toPk pub) x e s m
  | 0, _ => rfl
  | m + 1, hm => by
    have ih := view_session A pub hA x e s hx m fun i hi => hm i (by omega)
    unfold SDH.hist session
    rw [view_snoc, ih, answer_eq P pub x (e m) (s m) hx (hm m (by omega)) _ (hA _)]
    congr 2
    cases hp : probe P (toPk pub) (A.ask (toPk pub) (session P A (toPk pub) x e s m)) with
    | err e' => rfl
    | panic => rfl
    | ok σ =>
      rw [Res.ok_bind, Res.ok_bind]
      rw [player_ask P A pub _ _ ih, hp]
      rfl

theorem asked_session (A : Forger F G1 G2) (pub : SDH.Pub G1 G2 (Fin n)) (hA : ∀ l, Opens (toPk pub) (A.ask (toPk pub) l)) (x : F)
    (e s : Nat → F) (hx : x ≠ 0) (m : Nat) (hm : ∀ i < m, x + e i ≠ 0) (r : SDH.Req F (Fin n))
    (h : SDH.asked (player P n A) pub (SDH.real P.g1 x pub e s) m = some r) :
    (∃ σ, probe P (toPk pub) (A.ask (toPk pub) (session P A (toPk pub) x e s m)) = .ok σ) ∧
      r = ⟨fun j => signed j (A.ask (toPk pub) (session P A (toPk pub) x e s m)), blindingOf (A.ask (toPk pub) (session P A (toPk pub) x e s m))⟩ := by
  unfold SDH.asked at h
  rw [player_ask P A pub _ _ (view_session P A pub hA x e s hx m hm)] at h
  cases hp : probe P (toPk pub) (A.ask (toPk pub) (session P A (toPk pub) x e s m)) with
  | err e' => rw [hp] at h; exact absurd h (by simp)
  | panic => rw [hp] at h; exact absurd h (by simp)
  | ok σ =>
    rw [hp] at h
    exact ⟨⟨σ, rfl⟩, (Option.some.inj h).symm⟩

/-- the coins of the abstract game -/
def lower (log : G1 → F) (ω : Coins F G1 n q) : SDH.Coins F (Fin n) q := (ω.1, fun j => log (ω.2.1 j), ω.2.2.1, ω.2.2.2)

theorem wins_abstract (hnd : Nondeg P) (log : G1 → F) (hlog : ∀ p, log p • P.g1 = p) (A : Forger F G1 G2)
    (hA : ∀ pk l, Opens pk (A.ask pk l)) (ω : Coins F G1 n q) (hp : ∀ i, ω.1 + ω.2.2.1 i ≠ 0) (hw : WinsEq P n q A ω) :
    SDH.Win P.g1 P.g2 (player P n A) (lower log ω) ∧ (lower log ω).2.1 none ≠ 0 := by
  obtain ⟨pk, x, hgen, ⟨h0, hw0, hgs⟩, ⟨hlen, heq⟩, hnew⟩ := hw
  unfold generate at hgen
  split at hgen
  · exact absurd hgen (by simp)
  dsimp only at hgen
  obtain ⟨hpk, hx⟩ := Prod.mk.inj (Res.ok.inj hgen)
  subst hx
  have hpub : toPk (SDH.pubOf P.g1 P.g2 (lower log ω)) = pk := by
    rw [← hpk]
    unfold toPk SDH.pubOf lower
    dsimp only
    simp only [hlog]
  have hx0 : ω.1 ≠ 0 := by
    intro h
    refine hw0 ?_
    rw [← hpk, h]
    exact zero_smul _ _
  have hpoles : ∀ i < q, ω.1 + SDH.ext ω.2.2.1 i ≠ 0 := fun i hi => by
    rw [SDH.ext_at _ i hi]
    exact hp _
  have hA' : ∀ l, Opens (toPk (SDH.pubOf P.g1 P.g2 (lower log ω))) (A.ask (toPk (SDH.pubOf P.g1 P.g2 (lower log ω))) l) := fun l => hA _ _
  have hsig : SDH.signer P.g1 P.g2 (lower log ω) =
      SDH.real P.g1 ω.1 (SDH.pubOf P.g1 P.g2 (lower log ω)) (SDH.ext ω.2.2.1) (SDH.ext ω.2.2.2) := rfl
  have hv := view_session P A (SDH.pubOf P.g1 P.g2 (lower log ω)) hA' ω.1 (SDH.ext ω.2.2.1) (SDH.ext ω.2.2.2) hx0 q hpoles
  have hout : SDH.output (player P n A) (SDH.pubOf P.g1 P.g2 (lower log ω)) (SDH.signer P.g1 P.g2 (lower log ω)) q =
      ((⟨(A.out pk (session P A pk ω.1 (SDH.ext ω.2.2.1) (SDH.ext ω.2.2.2) q)).1.a,
        (A.out pk (session P A pk ω.1 (SDH.ext ω.2.2.1) (SDH.ext ω.2.2.2) q)).1.e,
        (A.out pk (session P A pk ω.1 (SDH.ext ω.2.2.1) (SDH.ext ω.2.2.2) q)).1.s⟩ : SDH.Sig F G1),
        fun j : Fin n => (A.out pk (session P A pk ω.1 (SDH.ext ω.2.2.1) (SDH.ext ω.2.2.2) q)).2.getD j 0) := by
    unfold SDH.output
    rw [hsig, player_out P A _ _ _ hv, hpub]
  have hhn : pk.h.length = n := by rw [← hpk]; exact List.length_ofFn
  have hbase : ∀ (ms : List F) (s : F), SDH.base P.g1 (SDH.pubOf P.g1 P.g2 (lower log ω)) (fun j : Fin n => ms.getD j 0) s =
      P.g1 + s • pk.h0 + ((pk.h.zip ms).map (fun p => p.2 • p.1)).sum := by
    intro ms s
    rw [← msm_zip, ← hpub]
    unfold SDH.base toPk
    dsimp only
    rw [msm_ofFn]
  generalize hoo : A.out pk (session P A pk ω.1 (SDH.ext ω.2.2.1) (SDH.ext ω.2.2.2) q) = o at *
  refine ⟨⟨?_, ?_⟩, ?_⟩
  · rw [hout]
    unfold SDH.Valid
    rw [hbase]
    exact heq
  · intro i hi r hr
    rw [hout]
    obtain ⟨⟨σ', hprobe⟩, hreq⟩ := asked_session P A _ hA' ω.1 (SDH.ext ω.2.2.1) (SDH.ext ω.2.2.2) hx0 i (fun k hk => hpoles k (by omega)) r hr
    have hans := answer_eq P (SDH.pubOf P.g1 P.g2 (lower log ω)) ω.1 (SDH.ext ω.2.2.1 i) (SDH.ext ω.2.2.2 i) hx0 (hpoles i hi) _
      (hA' (session P A (toPk (SDH.pubOf P.g1 P.g2 (lower log ω))) ω.1 (SDH.ext ω.2.2.1) (SDH.ext ω.2.2.2) i))
    rw [hprobe, Res.ok_bind] at hans
    rw [hpub] at hans hreq
    have hn := hnew i hi _ hans
    rintro ⟨he, hs, hm⟩
    dsimp only at he hs hm
    change o.1.e = SDH.ext ω.2.2.1 i at he
    change o.1.s = SDH.ext ω.2.2.2 i + r.r at hs
    rw [hreq] at hs hm
    dsimp only at hs hm
    refine hn ⟨?_, ?_⟩
    · have ha : o.1.a = (ω.1 + SDH.ext ω.2.2.1 i)⁻¹ • SDH.base P.g1 (SDH.pubOf P.g1 P.g2 (lower log ω))
          (fun j : Fin n => signed j (A.ask pk (session P A pk ω.1 (SDH.ext ω.2.2.1) (SDH.ext ω.2.2.2) i)))
          (SDH.ext ω.2.2.2 i + blindingOf (A.ask pk (session P A pk ω.1 (SDH.ext ω.2.2.1) (SDH.ext ω.2.2.2) i))) := by
        rw [← hm, ← hs, hbase, ← heq, he, smul_smul, inv_mul_cancel₀ (hpoles i hi), one_smul]
      unfold Signature.unblind
      dsimp only
      rw [← ha, ← he, ← hs]
    · intro j hj
      have := congrFun hm ⟨j, hj⟩
      dsimp only at this
      rw [← this, List.getD_eq_getElem?_getD, List.getElem?_eq_getElem (by omega)]
      rfl
  · intro hz
    refine h0 ?_
    rw [← hpub]
    change (lower log ω).2.1 none • P.g1 = 0
    rw [hz, zero_smul]

/-- the same for `WinsEq` -/
theorem unforgeable_eq [Fintype F] [Fintype G1] (hnd : Nondeg P) (hg : Function.Bijective fun c : F => c • P.g1) (n q : Nat)
    (A : Forger F G1 G2) (hA : ∀ pk l, Opens pk (A.ask pk l)) :
    pr (WinsEq P n q A) ≤ pr (SDH.Solves1 P.g1 P.g2 q (player P n A)) + pr (SDH.Solves2 P.g1 P.g2 q (player P n A)) +
      (q + 1) * (q + 2) / Fintype.card F := by
  have hF : (0 : ℚ) < Fintype.card F := by exact_mod_cast Fintype.card_pos
  obtain ⟨log, hl, hr⟩ := Function.bijective_iff_has_inverse.1 hg
  have hg0 : P.g1 ≠ 0 := by
    intro h
    have : (0 : F) = 1 := hg.1 (by dsimp only; rw [h, smul_zero, smul_zero])
    exact zero_ne_one this
  have hbij : Function.Bijective (lower log : Coins F G1 n q → SDH.Coins F (Fin n) q) := by
    refine Function.bijective_iff_has_inverse.2 ⟨fun ω => (ω.1, fun j => ω.2.1 j • P.g1, ω.2.2.1, ω.2.2.2), fun ω => ?_, fun ω => ?_⟩
    · unfold lower
      dsimp only
      have : (fun j => log (ω.2.1 j) • P.g1) = ω.2.1 := funext fun j => hr _
      rw [this]
    · unfold lower
      dsimp only
      have : (fun j => log (ω.2.1 j • P.g1)) = ω.2.1 := funext fun j => hl _
      rw [this]
  have h1 : pr (WinsEq P n q A) ≤ pr (fun ω : Coins F G1 n q =>
      (SDH.Win P.g1 P.g2 (player P n A) (lower log ω) ∧ (lower log ω).2.1 none ≠ 0 ∧ ∀ i, (lower log ω).1 + (lower log ω).2.2.1 i ≠ 0) ∨
      ∃ i, (lower log ω).1 + (lower log ω).2.2.1 i = 0) := by
    refine pr_mono fun ω hω => ?_
    by_cases hp : ∃ i, (lower log ω).1 + (lower log ω).2.2.1 i = 0
    · exact Or.inr hp
    · push Not at hp
      obtain ⟨h1, h2⟩ := wins_abstract P hnd log hr A hA ω hp hω
      exact Or.inl ⟨h1, h2, hp⟩
  have h2 := pr_or (fun ω : SDH.Coins F (Fin n) q => SDH.Win P.g1 P.g2 (player P n A) ω ∧ ω.2.1 none ≠ 0 ∧ ∀ i, ω.1 + ω.2.2.1 i ≠ 0)
    (fun ω => ∃ i, ω.1 + ω.2.2.1 i = 0)
  have h3 := SDH.forgery_solves P.g1 P.g2 (q := q) hg0 (player P n A)
  have h4 : pr (fun ω : SDH.Coins F (Fin n) q => ∃ i, ω.1 + ω.2.2.1 i = 0) ≤ q * (1 / Fintype.card F) :=
    SDH.pr_exists_fin _ _ fun i => SDH.pr_pole i
  have h5 := pr_bijective (lower log : Coins F G1 n q → SDH.Coins F (Fin n) q) hbij
    (fun ω => (SDH.Win P.g1 P.g2 (player P n A) ω ∧ ω.2.1 none ≠ 0 ∧ ∀ i, ω.1 + ω.2.2.1 i ≠ 0) ∨ ∃ i, ω.1 + ω.2.2.1 i = 0)
  rw [h5] at h1
  have hdiv : ((q : ℚ) + 1) * (q + 2) / Fintype.card F = (q * q + 2 * q + 2) / Fintype.card F + q * (1 / Fintype.card F) := by
    field_simp
    ring
  rw [hdiv]
  linarith

/-- **C208** A forger of BBS+ signatures solves the strong Diffie-Hellman problem.  Let a forger that knows what is in its commitments win
with probability `ε` against a fresh key, after `q` orders.  Then `Solves1` and `Solves2`, which run it with keys and answers made from
`g1, x g1, …, x^(q+1) g1` and `x g2` only, find `c` and `(x + c)⁻¹ g1` for a random `x` with probabilities that add up to at least
`ε - (q + 1)(q + 2) / |F|`. -/
theorem bbs_unforgeable [Fintype F] [Fintype G1] (hnd : Nondeg P) (hg : Function.Bijective fun c : F => c • P.g1) (n q : Nat)
    (A : Forger F G1 G2) (hA : ∀ pk l, Opens pk (A.ask pk l)) :
    pr (Wins P n q A) ≤ pr (SDH.Solves1 P.g1 P.g2 q (player P n A)) + pr (SDH.Solves2 P.g1 P.g2 q (player P n A)) +
      (q + 1) * (q + 2) / Fintype.card F :=
  (pr_mono fun ω h => wins_eq P hnd A ω h).trans (unforgeable_eq P hnd hg n q A hA)

end

/-! ## A forger that wins: it can read the secret key off the public key -/

namespace Met
open Verif.Toy Verif.BBS.Toy
local instance : Fact (Nat.Prime 101) := fact101

/-- orders a blind signature on the hidden message 5, made as prover.rs makes it, and signs the message 1 itself -/
def insider : Forger (ZMod 101) (ZMod 101) (ZMod 101) where
  ask := fun pk _ => match newBlindCtx par pk [(0, 5)] 9 4 6 [8] with
    | .ok (ctx, b) => .blind ctx [] 9 b [5]
    | _ => .direct []
  out := fun pk _ => (⟨(pk.w + 1)⁻¹ • getB par 1 [1] pk, 1, 1⟩, [1])

theorem opens (pk : PublicKey (ZMod 101) (ZMod 101)) (l : List (Res Error (Signature (ZMod 101) (ZMod 101)))) : Opens pk (insider.ask pk l) := by
  dsimp only [insider]
  cases h : newBlindCtx par pk [(0, 5)] 9 4 6 [8] with
  | err e => trivial
  | panic => trivial
  | ok c =>
    obtain ⟨ctx, b⟩ := c
    dsimp only
    unfold newBlindCtx at h
    obtain ⟨bases, hb, h⟩ := Res.bind_eq_ok.1 h
    obtain ⟨proof, hp, h⟩ := Res.bind_eq_ok.1 h
    rw [Res.pure_eq] at h
    obtain ⟨h1, h2⟩ := Prod.mk.inj (Res.ok.inj h)
    change ctx.commitment = b • pk.h0 + msm pk.h [5]
    rw [← h1, ← h2]
    change msm (pk.h0 :: bases) [4, 5] = _
    rw [msm_cons]
    congr 1
    cases hh : pk.h with
    | nil => rw [hh] at hb; exact absurd hb (by simp [ctxBases, Res.unwrap])
    | cons a as =>
      rw [hh] at hb
      have : bases = [a] := by
        simp [ctxBases, Res.unwrap] at hb
        exact hb.symm
      rw [this, msm_cons, msm_cons, msm_nil_right, msm_nil_right]

/-- the order is answered with a signature -/
example : ∃ σ, answer par ⟨2, [3], 7⟩ 7 20 31 (insider.ask ⟨2, [3], 7⟩ []) = .ok σ := ⟨_, rfl⟩

theorem insider_wins (ω : Coins (ZMod 101) (ZMod 101) 1 1) (hx : ω.1 ≠ 0) (h0 : ω.2.1 none ≠ 0) (h1 : ω.2.1 (some 0) ≠ 0) (hp : ω.1 + 1 ≠ 0)
    (hB : 1 + ω.2.1 none + ω.2.1 (some 0) ≠ 0) : Wins par 1 1 insider ω := by
  refine ⟨⟨ω.2.1 none, [ω.2.1 (some 0)], ω.1 • 1⟩, ω.1, rfl, ?_, ?_⟩
  · rw [bbs_verify_iff par nondeg _ _ _ ω.1 rfl, valid_iff]
    have hw : ω.1 • (1 : ZMod 101) = ω.1 := by rw [smul_eq_mul, mul_one]
    have hg : getB par 1 [1] ⟨ω.2.1 none, [ω.2.1 (some 0)], ω.1 • (1 : ZMod 101)⟩ = 1 + ω.2.1 none + ω.2.1 (some 0) := by
      unfold getB
      rw [msm_cons, msm_cons, msm_cons, msm_nil_right, one_smul, one_smul, one_smul, add_zero, add_assoc]
    dsimp only [insider]
    rw [hg, hw]
    refine ⟨⟨h0, hx, by simpa using h1⟩, ⟨smul_ne_zero (inv_ne_zero hp) hB, one_ne_zero, one_ne_zero⟩, rfl, ?_⟩
    rw [smul_smul, mul_inv_cancel₀ hp, one_smul]
  · intro i hi σ hσ
    rintro ⟨-, hm⟩
    have h := hm 0 (by omega)
    dsimp only [insider] at h
    cases hc : newBlindCtx par ⟨ω.2.1 none, [ω.2.1 (some 0)], ω.1 • (1 : ZMod 101)⟩ [(0, 5)] 9 4 6 [8] with
    | ok c =>
      rw [hc] at h
      change some (1 : ZMod 101) = some (5 + 0) at h
      exact absurd h (by decide +kernel)
    | err e =>
      rw [hc] at h
      change some (1 : ZMod 101) = some 0 at h
      exact absurd h (by decide +kernel)
    | panic =>
      rw [hc] at h
      change some (1 : ZMod 101) = some 0 at h
      exact absurd h (by decide +kernel)

/-- the coins for which it wins -/
theorem usual : 96 / 101 ≤ pr fun ω : Coins (ZMod 101) (ZMod 101) 1 1 => ¬ ((((ω.1 = 0 ∨ ω.1 = -1) ∨ ω.2.1 none = 0) ∨ ω.2.1 (some 0) = 0) ∨
    ω.2.1 none = -1 - ω.2.1 (some 0)) := by
  have line : ∀ (P : Coins (ZMod 101) (ZMod 101) 1 1 → Prop) (f : Coins (ZMod 101) (ZMod 101) 1 1 → ZMod 101 → Coins (ZMod 101) (ZMod 101) 1 1),
      (∀ a b, P a → P b → ∀ v v', f a v = f b v' → a = b ∧ v = v') → pr P ≤ 1 / 101 := by
    intro P f hf
    have := SDH.pr_line P f hf
    rwa [ZMod.card] at this
  have upd : ∀ (η η' : Option (Fin 1) → ZMod 101) (k : Option (Fin 1)) (v v' : ZMod 101), Function.update η k v = Function.update η' k v' →
      η k = η' k → η = η' ∧ v = v' := by
    intro η η' k v v' h hk
    refine ⟨funext fun j => ?_, ?_⟩
    · by_cases hj : j = k
      · rw [hj, hk]
      · have := congrFun h j
        rwa [Function.update_of_ne hj, Function.update_of_ne hj] at this
    · have := congrFun h k
      rwa [Function.update_self, Function.update_self] at this
  have setx : ∀ c : ZMod 101, pr (fun ω : Coins (ZMod 101) (ZMod 101) 1 1 => ω.1 = c) ≤ 1 / 101 := fun c =>
    line _ (fun ω v => (v, ω.2)) (by
      rintro ⟨x, r⟩ ⟨x', r'⟩ ha hb v v' hab
      dsimp only at ha hb hab
      obtain ⟨rfl, rfl⟩ := Prod.mk.inj hab
      rw [ha, hb]
      exact ⟨rfl, rfl⟩)
  have seth : ∀ (k : Option (Fin 1)) (c : (Option (Fin 1) → ZMod 101) → ZMod 101), (∀ η v, c (Function.update η k v) = c η) →
      pr (fun ω : Coins (ZMod 101) (ZMod 101) 1 1 => ω.2.1 k = c ω.2.1) ≤ 1 / 101 := fun k c hc =>
    line _ (fun ω v => (ω.1, Function.update ω.2.1 k v, ω.2.2)) (by
      rintro ⟨x, η, r⟩ ⟨x', η', r'⟩ ha hb v v' hab
      dsimp only at ha hb hab
      simp only [Prod.mk.injEq] at hab
      obtain ⟨rfl, hη, rfl⟩ := hab
      obtain ⟨rfl, rfl⟩ := upd _ _ k v v' hη (by rw [ha, hb, ← hc η v, hη, hc])
      exact ⟨rfl, rfl⟩)
  have h1 := setx 0
  have h2 := setx (-1)
  have h3 := seth none (fun _ => 0) (fun _ _ => rfl)
  have h4 := seth (some 0) (fun _ => 0) (fun _ _ => rfl)
  have h5 := seth none (fun η => -1 - η (some 0)) (fun η v => by rw [Function.update_of_ne (by simp)])
  have hne : Nonempty (Coins (ZMod 101) (ZMod 101) 1 1) := inferInstance
  have hall := pr_not_ge (fun ω : Coins (ZMod 101) (ZMod 101) 1 1 => (((ω.1 = 0 ∨ ω.1 = -1) ∨ ω.2.1 none = 0) ∨ ω.2.1 (some 0) = 0) ∨
    ω.2.1 none = -1 - ω.2.1 (some 0))
  have k1 := pr_or (fun ω : Coins (ZMod 101) (ZMod 101) 1 1 => ((ω.1 = 0 ∨ ω.1 = -1) ∨ ω.2.1 none = 0) ∨ ω.2.1 (some 0) = 0)
    (fun ω => ω.2.1 none = -1 - ω.2.1 (some 0))
  have k2 := pr_or (fun ω : Coins (ZMod 101) (ZMod 101) 1 1 => (ω.1 = 0 ∨ ω.1 = -1) ∨ ω.2.1 none = 0) (fun ω => ω.2.1 (some 0) = 0)
  have k3 := pr_or (fun ω : Coins (ZMod 101) (ZMod 101) 1 1 => ω.1 = 0 ∨ ω.1 = -1) (fun ω => ω.2.1 none = 0)
  have k4 := pr_or (fun ω : Coins (ZMod 101) (ZMod 101) 1 1 => ω.1 = 0) (fun ω => ω.1 = -1)
  norm_num at h1 h2 h3 h4 h5
  linarith

/-- With this forger one of the two reductions solves the problem with probability more than a third. -/
theorem reduction_succeeds : 1 / 3 < pr (SDH.Solves1 par.g1 par.g2 1 (player par 1 insider)) ∨
    1 / 3 < pr (SDH.Solves2 par.g1 par.g2 1 (player par 1 insider)) := by
  have hbij : Function.Bijective fun c : ZMod 101 => c • par.g1 := by
    have : (fun c : ZMod 101 => c • par.g1) = id := funext fun c => by change c • (1 : ZMod 101) = c; rw [smul_eq_mul, mul_one]
    rw [this]
    exact Function.bijective_id
  have h := bbs_unforgeable par nondeg hbij 1 1 insider opens
  have hu := usual
  have hwin : pr (fun ω : Coins (ZMod 101) (ZMod 101) 1 1 => ¬ ((((ω.1 = 0 ∨ ω.1 = -1) ∨ ω.2.1 none = 0) ∨ ω.2.1 (some 0) = 0) ∨
      ω.2.1 none = -1 - ω.2.1 (some 0))) ≤ pr (Wins par 1 1 insider) := by
    refine pr_mono fun ω hω => ?_
    push Not at hω
    obtain ⟨⟨⟨⟨a, b⟩, c⟩, d⟩, e⟩ := hω
    refine insider_wins ω a c d (fun h => b (eq_neg_of_add_eq_zero_left h)) (fun h => e ?_)
    linear_combination h
  rw [ZMod.card] at h
  norm_num at h
  by_contra hcon
  push Not at hcon
  linarith [hcon.1, hcon.2]

end Met
end Verif.BBS.Forgery
