import Verif.Props.BNShamir
import Verif.Props.SharingHiding
/-!
# C224: what fewer than `threshold` holders learn from libursa's Shamir sharing
-/
set_option linter.unusedSectionVars false
namespace Verif.BN
open Finset Verif.Forking

/-! ## Specification -/

/-- `test` says yes on the shares with identifiers in `ids`, if the results of `rand_range` are `c` -/
def SplitSays (field : Int) (t n : Nat) (ids : Finset Nat) (test : List Share → Prop) (secret : Bytes) {m p : Nat} (c : Fin m → ZMod p) : Prop :=
  ∃ shares, splitSecret (fun i => if h : i < m then ((c ⟨i, h⟩).val : Int) else 0) secret t n field = .ok shares ∧ test (shares.filter fun s => s.identifier ∈ ids)

section
variable {p : Nat} [Fact p.Prime]

/-- the coefficients as elements of the field -/
theorem rng_draws {m : Nat} (c : Fin m → ZMod p) :
    (List.range m).map (fun i => (((if h : i < m then ((c ⟨i, h⟩).val : Int) else 0 : Int)) : ZMod p)) = (List.range m).map (Sharing.draws c) := by
  refine List.map_congr_left fun i hi => ?_
  rw [List.mem_range] at hi
  unfold Sharing.draws
  rw [dif_pos hi, dif_pos hi]
  simp

/-- **C224** Over a prime field with more elements than shares, the shares of fewer than `threshold` holders have the same distribution for all secrets. -/
theorem bn_shares_hide (t n : Nat) (h2 : 2 ≤ t) (h1 : t ≤ n) (hn : n < 256) (hnp : n < p) (ids : Finset Nat) (hcard : ids.card < t)
    (test : List Share → Prop) (s s' : Bytes) (hs : s ≠ []) (hs' : s' ≠ []) (hsp : fromBytes s < p) (hsp' : fromBytes s' < p) :
    pr (fun c : Fin (t - 1) → ZMod p => SplitSays p t n ids test s c) = pr (fun c : Fin (t - 1) → ZMod p => SplitSays p t n ids test s' c) := by
  rw [← pr_bijective _ (Sharing.shift_bijective ids (t - 1) ((fromBytes s' : ZMod p) - (fromBytes s : ZMod p))) (fun c : Fin (t - 1) → ZMod p => SplitSays p t n ids test s' c)]
  congr 1
  funext c
  have key : ((List.range n).map fun i => specShare ((fromBytes s' : ZMod p) ::
      (List.range (t - 1)).map (Sharing.draws (c + ((fromBytes s' : ZMod p) - (fromBytes s : ZMod p)) • Sharing.maskTail (ZMod p) ids (t - 1)))) (i + 1)).filter
        (fun s => s.identifier ∈ ids) =
      ((List.range n).map fun i => specShare ((fromBytes s : ZMod p) :: (List.range (t - 1)).map (Sharing.draws c)) (i + 1)).filter (fun s => s.identifier ∈ ids) := by
    rw [List.filter_map, List.filter_map]
    refine List.map_congr_left fun j hj => ?_
    rw [List.mem_filter, List.mem_range] at hj
    obtain ⟨hjn, hmem⟩ := hj
    have hin : j + 1 ∈ ids := of_decide_eq_true hmem
    have h0 : ((j + 1 : Nat) : ZMod p) ≠ 0 := by
      rw [Ne, ZMod.natCast_eq_zero_iff]
      intro hd
      have := Nat.le_of_dvd (by omega) hd
      omega
    have h3 := Sharing.eval_shift (by omega : 1 ≤ t) ids hcard hin h0 c (fromBytes s : ZMod p) ((fromBytes s' : ZMod p) - (fromBytes s : ZMod p))
    rw [add_sub_cancel] at h3
    unfold specShare
    unfold Sharing.polyNew at h3
    rw [h3]
  unfold SplitSays
  rw [split_eq _ s t n h1 h2 hn hs hsp, split_eq _ s' t n h1 h2 hn hs' hsp', rng_draws, rng_draws]
  refine propext ⟨?_, ?_⟩
  · rintro ⟨sh, h, ht⟩
    cases h
    exact ⟨_, rfl, by rw [key]; exact ht⟩
  · rintro ⟨sh, h, ht⟩
    cases h
    exact ⟨_, rfl, by rw [← key]; exact ht⟩

end

/-! ## Prime powers, which the documentation allows -/

theorem mapM_mem {A B : Type} (f : A → Res String B) : ∀ (l : List A) (r : List B), l.mapM f = .ok r → ∀ a ∈ l, ∃ b ∈ r, f a = .ok b
  | [], _, _, a, ha => by cases ha
  | x :: l, r, h, a, ha => by
    rw [List.mapM_cons] at h
    obtain ⟨y, hy, h⟩ := Res.bind_eq_ok.1 h
    obtain ⟨ys, hys, h⟩ := Res.bind_eq_ok.1 h
    cases h
    rcases List.mem_cons.1 ha with rfl | ha
    · exact ⟨y, by simp, hy⟩
    · obtain ⟨b, hb, hf⟩ := mapM_mem f l ys hys a ha
      exact ⟨b, by simp [hb], hf⟩

theorem evaluate_last (cs : List Element) (c0 x y : Element) (hcs : cs ≠ []) (h : evaluate (c0 :: cs) x = .ok y) :
    ∃ out m, Element.mul out x = .ok m ∧ Element.add m c0 = .ok y := by
  unfold evaluate at h
  rw [List.reverse_cons] at h
  cases hr : cs.reverse with
  | nil => exact absurd (List.reverse_eq_nil_iff.1 hr) hcs
  | cons top rest =>
    rw [hr, List.cons_append] at h
    dsimp only at h
    rw [List.foldlM_append] at h
    obtain ⟨out, -, h⟩ := Res.bind_eq_ok.1 h
    rw [List.foldlM_cons] at h
    obtain ⟨y', hy', h⟩ := Res.bind_eq_ok.1 h
    cases h
    obtain ⟨m, hm, ha⟩ := Res.bind_eq_ok.1 hy'
    exact ⟨out, m, hm, ha⟩

/-- **C224 (negation for prime powers)** If a number `d` up to `total` divides the modulus, then share number `d` alone gives the secret modulo `d`. -/
theorem bn_divisor_leaks (rng : Nat → Int) (secret : Bytes) (t n : Nat) (hn : n < 256) (field : Int) (d : Nat) (hd : 1 ≤ d) (hdn : d ≤ n) (hdf : (d : Int) ∣ field)
    (shares : List Share) (hsplit : splitSecret rng secret t n field = .ok shares) : ∃ v, ⟨d, v⟩ ∈ shares ∧ v % d = fromBytes secret % d := by
  unfold splitSecret at hsplit
  split at hsplit; · cases hsplit
  split at hsplit; · cases hsplit
  split at hsplit; · cases hsplit
  split at hsplit; · cases hsplit
  rename_i h1 h2 h3 h4
  dsimp only at hsplit
  split at hsplit; · cases hsplit
  obtain ⟨b, hb, hf⟩ := mapM_mem _ _ _ hsplit (d - 1) (List.mem_range.2 (by omega))
  unfold mkShare at hf
  rw [show d - 1 + 1 = d by omega] at hf
  obtain ⟨x, hx, hf⟩ := Res.bind_eq_ok.1 hf
  obtain ⟨y, hy, hf⟩ := Res.bind_eq_ok.1 hf
  cases hf
  refine ⟨y.value, hb, ?_⟩
  have hpos : (0 : Int) < field := by omega
  have hx2 : x = ⟨field, (d : Int) % field⟩ := by
    unfold Element.fromBytes Element.new at hx
    rw [modulus_eq_emod _ _ hpos] at hx
    have : fromBytes [UInt8.ofNat d] = (d : Int) := by
      simp only [fromBytes, ofBe, List.foldl_cons, List.foldl_nil, UInt8.toNat_ofNat']
      rw [Nat.mod_eq_of_lt (by omega)]; simp
    rw [this] at hx
    cases hx
    rfl
  obtain ⟨out, m, hm, ha⟩ := evaluate_last _ _ _ _ (by simp; omega) hy
  unfold Element.mul at hm
  obtain ⟨_, _, hm⟩ := Res.bind_eq_ok.1 hm
  obtain ⟨v, hv, hm⟩ := Res.bind_eq_ok.1 hm
  cases hm
  unfold Element.add at ha
  obtain ⟨_, hval, ha⟩ := Res.bind_eq_ok.1 ha
  obtain ⟨w, hw, ha⟩ := Res.bind_eq_ok.1 ha
  cases ha
  unfold Element.validate at hval
  split at hval; · cases hval
  rename_i hmod
  rw [not_not] at hmod
  dsimp only at hmod hw
  rw [hmod, modulus_eq_emod _ _ hpos] at hw
  cases hw
  rw [hx2] at hv
  unfold modMul at hv
  dsimp only at hv
  rw [modulus_eq_emod _ _ hpos] at hv
  cases hv
  dsimp only
  rw [Int.emod_emod_of_dvd _ hdf, Int.add_emod, Int.emod_emod_of_dvd _ hdf, Int.mul_emod, Int.emod_emod_of_dvd _ hdf, Int.emod_self]
  simp

/-! ### Non-vacuity -/
section Examples

/-- one holder of a 2-of-3 sharing over the field with 101 elements -/
example (test : List Share → Prop) : pr (fun c : Fin 1 → ZMod 101 => SplitSays 101 2 3 {2} test [5] c) = pr (fun c : Fin 1 → ZMod 101 => SplitSays 101 2 3 {2} test [77] c) :=
  haveI := Toy.fact101
  bn_shares_hide (p := 101) 2 3 (by norm_num) (by norm_num) (by norm_num) (by norm_num) {2} (by decide) test [5] [77] (by simp) (by simp) (by decide) (by decide)

/-- a test that tells something: the share is 7, which the coefficient 1 gives -/
example : SplitSays 101 2 3 {2} (fun l => l = [⟨2, 7⟩]) [5] (fun _ : Fin 1 => (1 : ZMod 101)) := ⟨[⟨1, 6⟩, ⟨2, 7⟩, ⟨3, 8⟩], by decide +kernel, by decide +kernel⟩

/-- modulo 256, share number 2 tells whether the secret is even -/
example : ∃ shares, splitSecret (fun _ => 33) [5] 2 3 256 = .ok shares ∧ ∃ v, (⟨2, v⟩ : Share) ∈ shares ∧ v % (2 : Nat) = 1 := by
  refine ⟨[⟨1, 38⟩, ⟨2, 71⟩, ⟨3, 104⟩], by decide +kernel, ?_⟩
  obtain ⟨v, h1, h2⟩ := bn_divisor_leaks (fun _ => 33) [5] 2 3 (by norm_num) 256 2 (by norm_num) (by norm_num) (by norm_num) [⟨1, 38⟩, ⟨2, 71⟩, ⟨3, 104⟩] (by decide +kernel)
  exact ⟨v, h1, h2.trans (by decide +kernel)⟩
end Examples

end Verif.BN
