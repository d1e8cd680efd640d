import Verif.Props.Errors
set_option linter.unusedVariables false
set_option linter.unusedSimpArgs false
/-!
# Installing a logger from several threads (C185), what is delivered (C186)
-/
namespace Verif.Errors
open FFI (Kind Code)
open BN (Text)

/-- the successful calls in a history: who, and with which logger -/
def successes (h : List Event) : List (Nat × Logger) :=
  h.filterMap fun e => match e with
    | .returned t (some l) .success => some (t, l)
    | _ => none

theorem successes_append (h k : List Event) : successes (h ++ k) = successes h ++ successes k := List.filterMap_append

/-- what holds at every moment -/
inductive Inv (w : World) (h : List Event) : Prop
  | none (g : w.global = .uninit) (lv : w.maxLevel = 0) (su : successes h = []) (pc : ∀ t, w.pc t = .idle ∨ ∃ l, w.pc t = .trying l)
  | busy (g : w.global = .initializing) (lv : w.maxLevel = 0) (su : successes h = []) (t : Nat) (l : Logger) (ht : w.pc t = .claimed l)
      (pc : ∀ t', t' ≠ t → w.pc t' = .idle ∨ ∃ l, w.pc t' = .trying l)
  | level (t : Nat) (l : Logger) (g : w.global = .init l) (lv : w.maxLevel = 0) (su : successes h = []) (ht : w.pc t = .published l)
      (pc : ∀ t', t' ≠ t → w.pc t' = .idle ∨ ∃ l, w.pc t' = .trying l)
  | done (t : Nat) (l : Logger) (g : w.global = .init l) (lv : w.maxLevel = l.maxLevel) (su : successes h = [(t, l)])
      (pc : ∀ t, w.pc t = .idle ∨ ∃ l, w.pc t = .trying l)

theorem at_same (w : World) (t : Nat) (p : Pc) : (w.at t p).pc t = p := by simp [World.at]
theorem at_other (w : World) (t t' : Nat) (p : Pc) (h : t' ≠ t) : (w.at t p).pc t' = w.pc t' := by simp [World.at, h]

/-- a thread goes to `idle` or `trying`, nothing else changes -/
theorem Inv.move {w : World} {h : List Event} (i : Inv w h) (e : List Event) (he : successes e = []) (t : Nat) (p : Pc) (hp : p = .idle ∨ ∃ l, p = .trying l)
    (ht : w.pc t = .idle ∨ ∃ l, w.pc t = .trying l) : Inv (w.at t p) (h ++ e) := by
  have su : ∀ {x}, successes h = x → successes (h ++ e) = x := by intro x hx; rw [successes_append, he, hx, List.append_nil]
  have mv : ∀ t', (w.pc t' = .idle ∨ ∃ l, w.pc t' = .trying l) → ((w.at t p).pc t' = .idle ∨ ∃ l, (w.at t p).pc t' = .trying l) := by
    intro t' h'
    by_cases c : t' = t
    · subst c; rw [at_same]; exact hp
    · rw [at_other _ _ _ _ c]; exact h'
  rcases i with ⟨g, lv, s, pc⟩ | ⟨g, lv, s, u, l, hu, pc⟩ | ⟨u, l, g, lv, s, hu, pc⟩ | ⟨u, l, g, lv, s, pc⟩
  · exact .none g lv (su s) fun t' => mv t' (pc t')
  · have hut : u ≠ t := by rintro rfl; rw [hu] at ht; simp at ht
    exact .busy g lv (su s) u l (by rw [at_other _ _ _ _ hut]; exact hu) fun t' h' => mv t' (pc t' h')
  · have hut : u ≠ t := by rintro rfl; rw [hu] at ht; simp at ht
    exact .level u l g lv (su s) (by rw [at_other _ _ _ _ hut]; exact hu) fun t' h' => mv t' (pc t' h')
  · exact .done u l g lv (su s) fun t' => mv t' (pc t')

theorem Inv.same {w : World} {h : List Event} (i : Inv w h) (e : List Event) (he : successes e = []) : Inv w (h ++ e) := by
  have su : ∀ {x}, successes h = x → successes (h ++ e) = x := by intro x hx; rw [successes_append, he, hx, List.append_nil]
  rcases i with ⟨g, lv, s, pc⟩ | ⟨g, lv, s, u, l, hu, pc⟩ | ⟨u, l, g, lv, s, hu, pc⟩ | ⟨u, l, g, lv, s, pc⟩
  exacts [.none g lv (su s) pc, .busy g lv (su s) u l hu pc, .level u l g lv (su s) hu pc, .done u l g lv (su s) pc]

theorem Steps.inv {h : List Event} {w : World} (s : Steps World.start h w) : Inv w h := by
  induction s with
  | refl => exact .none rfl rfl rfl fun t => .inl rfl
  | snoc s st ih =>
    have i := ih
    cases st with
    | call t l ht => exact i.move _ rfl t _ (.inr ⟨l, rfl⟩) (.inl ht)
    | refused t ht c hc => exact i.same _ (by rcases hc with rfl | rfl <;> rfl)
    | claim t l ht hg =>
      rw [List.append_nil]
      rcases i with ⟨g, lv, s, pc⟩ | ⟨g, lv, s, u, l, hu, pc⟩ | ⟨u, l, g, lv, s, hu, pc⟩ | ⟨u, l, g, lv, s, pc⟩
      · exact .busy rfl lv s t l (at_same _ _ _) fun t' h' => by rw [at_other _ _ _ _ h']; exact pc t'
      all_goals (rw [g] at hg; simp at hg)
    | refuse t l l' ht hg => exact i.move _ rfl t _ (.inl rfl) (.inr ⟨l, ht⟩)
    | publish t l ht =>
      rw [List.append_nil]
      rcases i with ⟨g, lv, s, pc⟩ | ⟨g, lv, s, u, l', hu, pc⟩ | ⟨u, l', g, lv, s, hu, pc⟩ | ⟨u, l', g, lv, s, pc⟩
      · have := pc t; rw [ht] at this; simp at this
      · have e : t = u := by
          by_contra c
          have := pc t c; rw [ht] at this; simp at this
        subst e
        exact .level t l rfl lv s (at_same _ _ _) fun t' h' => by rw [at_other _ _ _ _ h']; exact pc t' h'
      · by_cases c : t = u
        · subst c; rw [ht] at hu; simp at hu
        · have := pc t c; rw [ht] at this; simp at this
      · have := pc t; rw [ht] at this; simp at this
    | level t l ht =>
      rcases i with ⟨g, lv, s, pc⟩ | ⟨g, lv, s, u, l', hu, pc⟩ | ⟨u, l', g, lv, s, hu, pc⟩ | ⟨u, l', g, lv, s, pc⟩
      · have := pc t; rw [ht] at this; simp at this
      · by_cases c : t = u
        · subst c; rw [ht] at hu; simp at hu
        · have := pc t c; rw [ht] at this; simp at this
      · have e : t = u := by
          by_contra c
          have := pc t c; rw [ht] at this; simp at this
        subst e
        rw [ht] at hu
        simp only [Pc.published.injEq] at hu
        subst hu
        refine .done t l g rfl (by rw [successes_append, s]; rfl) fun t' => ?_
        by_cases c : t' = t
        · subst c; rw [at_same]; exact .inl rfl
        · rw [at_other _ _ _ _ c]; exact pc t' c
      · have := pc t; rw [ht] at this; simp at this
    | log t r => exact i.same _ rfl

/-- **C185.** However many threads try to install loggers, in any interleaving: at most one call succeeds. -/
theorem one_success {h : List Event} {w : World} (s : Steps World.start h w) : (successes h).length ≤ 1 := by
  rcases s.inv with ⟨_, _, s, _⟩ | ⟨_, _, s, _, _, _, _⟩ | ⟨_, _, _, _, s, _, _⟩ | ⟨_, _, _, _, s, _⟩ <;> simp [s]

/-- **C185.** From the moment a call has returned success on, for ever, its logger is the installed one and the level is the one that it asks for. -/
theorem success_lasts {h : List Event} {w : World} (s : Steps World.start h w) (t : Nat) (l : Logger) (hs : (t, l) ∈ successes h) :
    w.global = .init l ∧ w.maxLevel = l.maxLevel := by
  rcases s.inv with ⟨_, _, s, _⟩ | ⟨_, _, s, _, _, _, _⟩ | ⟨_, _, _, _, s, _, _⟩ | ⟨u, l', g, lv, s, pc⟩
  · rw [s] at hs; simp at hs
  · rw [s] at hs; simp at hs
  · rw [s] at hs; simp at hs
  · rw [s] at hs
    simp only [List.mem_singleton, Prod.mk.injEq] at hs
    obtain ⟨rfl, rfl⟩ := hs
    exact ⟨g, lv⟩

/-- **C185.** Every call returns success or, when another logger is installed, `CommonInvalidState`, or names the missing parameter; a call that fails changes neither
the logger nor the level. -/
theorem failed_call_no_effect {h : List Event} {w w' : World} {e : List Event} (s : Steps World.start h w) (st : Step w e w') (t : Nat) (l : Option Logger)
    (c : Code) (he : .returned t l c ∈ e) (hc : c ≠ .success) :
    w'.global = w.global ∧ w'.maxLevel = w.maxLevel ∧ ((l = none ∧ (c = .param3 ∨ c = .param1)) ∨ (c = .invalidState ∧ ∃ l', w.global = .init l')) := by
  cases st with
  | call => simp at he
  | refused t' ht c' hc' =>
    simp only [List.mem_cons, reduceCtorEq, Event.returned.injEq, List.not_mem_nil, or_false, false_or] at he
    obtain ⟨rfl, rfl, rfl⟩ := he
    exact ⟨rfl, rfl, .inl ⟨rfl, hc'⟩⟩
  | claim => simp at he
  | refuse t' l0 l' ht hg =>
    simp only [List.mem_cons, Event.returned.injEq, List.not_mem_nil, or_false] at he
    obtain ⟨rfl, rfl, rfl⟩ := he
    exact ⟨rfl, rfl, .inr ⟨rfl, l', hg⟩⟩
  | publish => simp at he
  | level t' l0 ht =>
    simp only [List.mem_cons, Event.returned.injEq, List.not_mem_nil, or_false] at he
    exact absurd he.2.2 hc
  | log => simp at he

/-- every logger in play was passed to a call -/
theorem Steps.asked {h : List Event} {w : World} (s : Steps World.start h w) :
    (∀ l, w.global = .init l → ∃ t, .call t (some l) ∈ h) ∧
    ∀ t l, (w.pc t = .trying l ∨ w.pc t = .claimed l ∨ w.pc t = .published l) → .call t (some l) ∈ h := by
  induction s with
  | refl => exact ⟨fun l h => by simp [World.start] at h, fun t l h => by simp [World.start] at h⟩
  | @snoc w1 w2 h e s st ih =>
    obtain ⟨i1, i2⟩ := ih
    have up : ∀ {x : Event}, x ∈ h → x ∈ h ++ e := fun hx => List.mem_append_left _ hx
    cases st with
    | call t l ht =>
      refine ⟨fun l' hl => (i1 l' hl).imp fun _ => up, fun t' l' h' => ?_⟩
      by_cases c : t' = t
      · subst c
        rw [at_same] at h'
        simp only [Pc.trying.injEq, reduceCtorEq, or_false] at h'
        subst h'
        exact List.mem_append_right _ (by simp)
      · rw [at_other _ _ _ _ c] at h'; exact up (i2 _ _ h')
    | refused t ht c hc => exact ⟨fun l' hl => (i1 l' hl).imp fun _ => up, fun t' l' h' => up (i2 _ _ h')⟩
    | claim t l ht hg =>
      refine ⟨fun l' hl => by simp [World.at] at hl, fun t' l' h' => up ?_⟩
      by_cases c : t' = t
      · subst c
        rw [at_same] at h'
        simp only [Pc.claimed.injEq, reduceCtorEq, or_false, false_or] at h'
        subst h'
        exact i2 _ _ (.inl ht)
      · rw [at_other _ _ _ _ c] at h'; exact i2 _ _ h'
    | refuse t l l' ht hg =>
      refine ⟨fun l' hl => (i1 l' hl).imp fun _ => up, fun t' l' h' => up ?_⟩
      by_cases c : t' = t
      · subst c; rw [at_same] at h'; simp at h'
      · rw [at_other _ _ _ _ c] at h'; exact i2 _ _ h'
    | publish t l ht =>
      refine ⟨fun l' hl => ?_, fun t' l' h' => up ?_⟩
      · simp only [World.at, Global.init.injEq] at hl
        subst hl
        exact ⟨t, up (i2 _ _ (.inr (.inl ht)))⟩
      · by_cases c : t' = t
        · subst c
          rw [at_same] at h'
          simp only [Pc.published.injEq, reduceCtorEq, false_or] at h'
          subst h'
          exact i2 _ _ (.inr (.inl ht))
        · rw [at_other _ _ _ _ c] at h'; exact i2 _ _ h'
    | level t l ht =>
      refine ⟨fun l' hl => (i1 l' hl).imp fun _ => up, fun t' l' h' => up ?_⟩
      by_cases c : t' = t
      · subst c; rw [at_same] at h'; simp at h'
      · rw [at_other _ _ _ _ c] at h'; exact i2 _ _ h'
    | log t r => exact ⟨fun l' hl => (i1 l' hl).imp fun _ => up, fun t' l' h' => up (i2 _ _ h')⟩

theorem Steps.trans {w w1 w2 : World} {h k : List Event} (s : Steps w h w1) (s' : Steps w1 k w2) : Steps w (h ++ k) w2 := by
  induction s' with
  | refl => rw [List.append_nil]; exact s
  | snoc _ st ih => rw [← List.append_assoc]; exact .snoc ih st

theorem Steps.one {w w' : World} {e : List Event} (st : Step w e w') : Steps w e w' := Steps.snoc (.refl w) st

/-- **C185.** No deadlock: at any moment, every call under way can be brought to its end. -/
theorem call_can_finish {h : List Event} {w : World} (s : Steps World.start h w) (t : Nat) : ∃ k w', Steps w k w' ∧ w'.pc t = .idle := by
  -- once a logger is installed, a waiting thread is refused
  have fin : ∀ (v : World) (l : Logger), v.global = .init l → (v.pc t = .idle ∨ ∃ l, v.pc t = .trying l) → ∃ k w', Steps v k w' ∧ w'.pc t = .idle := by
    intro v l g hp
    rcases hp with hp | ⟨l', hp⟩
    · exact ⟨_, _, .refl v, hp⟩
    · exact ⟨_, _, .one (.refuse v t l' l hp g), at_same _ _ _⟩
  have fin2 : ∀ (v : World) (u : Nat) (l : Logger), v.global = .init l → v.pc u = .published l → (t ≠ u → v.pc t = .idle ∨ ∃ l, v.pc t = .trying l) →
      ∃ k w', Steps v k w' ∧ w'.pc t = .idle := by
    intro v u l g hu hp
    by_cases c : t = u
    · subst c; exact ⟨_, _, .one (.level v t l hu), at_same _ _ _⟩
    · exact fin v l g (hp c)
  have fin3 : ∀ (v : World) (u : Nat) (l : Logger), v.pc u = .claimed l → (t ≠ u → v.pc t = .idle ∨ ∃ l, v.pc t = .trying l) →
      ∃ k w', Steps v k w' ∧ w'.pc t = .idle := by
    intro v u l hu hp
    obtain ⟨k, w', s1, h1⟩ := fin2 ({ v with global := .init l }.at u (.published l)) u l rfl (at_same _ _ _)
      (fun c => by rw [at_other _ _ _ _ c]; exact hp c)
    exact ⟨_, w', (Steps.one (.publish v u l hu)).trans s1, h1⟩
  rcases s.inv with ⟨g, lv, s, pc⟩ | ⟨g, lv, s, u, l', hu, pc⟩ | ⟨u, l', g, lv, s, hu, pc⟩ | ⟨u, l', g, lv, s, pc⟩
  · rcases pc t with hp | ⟨l, hp⟩
    · exact ⟨_, _, .refl w, hp⟩
    · obtain ⟨k, w', s1, h1⟩ := fin3 ({ w with global := .initializing }.at t (.claimed l)) t l (at_same _ _ _) (fun c => absurd rfl c)
      exact ⟨_, w', (Steps.one (.claim w t l hp g)).trans s1, h1⟩
  · exact fin3 w u l' hu fun c => pc t c
  · exact fin2 w u l' g hu fun c => pc t c
  · exact fin w l' g (pc t)

/-! ## C186: what is delivered -/

/-- no character 0 in the texts of a record -/
def Record.Clean (r : Record) : Prop := nul ∉ r.target ∧ nul ∉ r.message ∧ (∀ s, r.modulePath = some s → nul ∉ s) ∧ ∀ s, r.file = some s → nul ∉ s

theorem cRead_cstring {s : Text} (h : nul ∉ s) : cRead (s ++ [nul]) = s := by
  rw [cRead, List.takeWhile_append_of_pos]
  · simp
  · intro a ha; simp only [ne_eq, decide_not, Bool.not_eq_eq_eq_not, Bool.not_true, decide_eq_false_iff_not]; rintro rfl; exact h ha

theorem cstringOpt_clean {o : Option Text} (h : ∀ s, o = some s → nul ∉ s) : cstringOpt o = .ok (o.map (· ++ [nul])) := by
  cases o with
  | none => rfl
  | some s => simp [cstringOpt, cstring, h s rfl, Res.ok_bind, Res.pure_eq]

theorem cstringOpt_dirty {s : Text} (h : nul ∈ s) : cstringOpt (some s) = .panic := by
  simp [cstringOpt, cstring, h, Res.panic_bind]

theorem cstringOpt_ok_or {o : Option Text} : (∃ x, cstringOpt o = .ok x) ∨ cstringOpt o = .panic := by
  cases o with
  | none => exact .inl ⟨_, rfl⟩
  | some s =>
    by_cases c : nul ∈ s
    · exact .inr (cstringOpt_dirty c)
    · exact .inl ⟨_, cstringOpt_clean (o := some s) (by simpa using c)⟩

theorem map_cRead {o : Option Text} (h : ∀ s, o = some s → nul ∉ s) : (o.map (· ++ [nul])).map cRead = o := by
  cases o with
  | none => rfl
  | some s => simp [cRead_cstring (h s rfl)]

/-- **C186.** The call of a callback: with exactly the values of the record (line 0 if there is none) if no text has a character 0, and otherwise the program panics. -/
theorem customLog_spec (context : Nat) (r : Record) :
    (r.Clean → customLog context r = .ok ⟨context, r.level, r.target, r.message, r.modulePath, r.file, r.line.getD 0⟩) ∧
    (¬ r.Clean → customLog context r = .panic) := by
  constructor
  · rintro ⟨h1, h2, h3, h4⟩
    simp only [customLog, cstring, if_neg h1, if_neg h2, cstringOpt_clean h3, cstringOpt_clean h4, Res.ok_bind, Res.pure_eq, cRead_cstring h1, cRead_cstring h2,
      map_cRead h3, map_cRead h4]
  · intro hc
    simp only [customLog]
    by_cases h1 : nul ∈ r.target
    · simp only [cstring, if_pos h1, Res.panic_bind]
    by_cases h2 : nul ∈ r.message
    · simp only [cstring, if_neg h1, if_pos h2, Res.ok_bind, Res.panic_bind]
    simp only [cstring, if_neg h1, if_neg h2, Res.ok_bind]
    by_cases h3 : ∀ s, r.modulePath = some s → nul ∉ s
    · rw [cstringOpt_clean h3]
      simp only [Res.ok_bind]
      by_cases h4 : ∀ s, r.file = some s → nul ∉ s
      · exact absurd ⟨h1, h2, h3, h4⟩ hc
      · push Not at h4
        obtain ⟨s, hs, hn⟩ := h4
        rw [hs, cstringOpt_dirty hn, Res.panic_bind]
    · push Not at h3
      obtain ⟨s, hs, hn⟩ := h3
      rw [hs, cstringOpt_dirty hn, Res.panic_bind]

/-- **C186.** Once `ursa_set_logger` has returned success, every record of every thread is passed to its callback, with exactly its values: whatever the callback `enabled`
would answer.  (The documentation says that `enabled` determines if a record would be logged.) -/
theorem all_delivered {h : List Event} {w : World} (s : Steps World.start h w) (t : Nat) (id context : Nat) (enabled : Option (Nat → Text → Bool))
    (hs : (t, .custom id context enabled) ∈ successes h) (r : Record) (hr : r.level ≤ 5) (hc : r.Clean) :
    w.log r = .ok (.callback id ⟨context, r.level, r.target, r.message, r.modulePath, r.file, r.line.getD 0⟩) := by
  obtain ⟨g, lv⟩ := success_lasts s t _ hs
  simp only [World.log, g, lv, Logger.maxLevel, if_pos hr, Logger.log, (customLog_spec context r).1 hc, Res.ok_bind, Res.pure_eq]

/-- **C186**: and a record with a character 0 in a text makes the thread that logs it panic. -/
theorem nul_panics {h : List Event} {w : World} (s : Steps World.start h w) (t : Nat) (id context : Nat) (enabled : Option (Nat → Text → Bool))
    (hs : (t, .custom id context enabled) ∈ successes h) (r : Record) (hr : r.level ≤ 5) (hc : ¬ r.Clean) : w.log r = .panic := by
  obtain ⟨g, lv⟩ := success_lasts s t _ hs
  simp only [World.log, g, lv, Logger.maxLevel, if_pos hr, Logger.log, (customLog_spec context r).2 hc, Res.panic_bind]

/-- **C186.** A callback is called only for a logger that was passed to a call before. -/
theorem delivered_to_asked {h : List Event} {w : World} (s : Steps World.start h w) (r : Record) (id : Nat) (c : CRecord) (hd : w.log r = .ok (.callback id c)) :
    ∃ t enabled, .call t (some (.custom id c.context enabled)) ∈ h := by
  simp only [World.log] at hd
  by_cases hl : r.level ≤ w.maxLevel
  · rw [if_pos hl] at hd
    cases hg : w.global with
    | uninit => rw [hg] at hd; simp at hd
    | initializing => rw [hg] at hd; simp at hd
    | init l =>
      rw [hg] at hd
      simp only at hd
      obtain ⟨t, ht⟩ := s.asked.1 l hg
      cases l with
      | default f d =>
        simp only [Logger.log, Res.ok.injEq] at hd
        by_cases c : d r.level r.target
        · rw [if_pos c] at hd; simp at hd
        · rw [if_neg c] at hd; simp at hd
      | custom id' ctx en =>
        simp only [Logger.log] at hd
        obtain ⟨c', hc, hd⟩ := Res.bind_eq_ok.1 hd
        simp only [Res.pure_eq, Res.ok.injEq, Delivery.callback.injEq] at hd
        obtain ⟨rfl, rfl⟩ := hd
        have hx : c'.context = ctx := by
          by_cases cl : r.Clean
          · rw [(customLog_spec ctx r).1 cl] at hc
            simp only [Res.ok.injEq] at hc
            rw [← hc]
          · rw [(customLog_spec ctx r).2 cl] at hc; simp at hc
        exact ⟨t, en, by rw [hx]; exact ht⟩
  · rw [if_neg hl] at hd; simp at hd

/-- **C186** what a custom logger answers to `enabled` (for those who ask): without a callback yes, otherwise what the callback answers for
the level and the target -/
theorem customEnabled_spec (level : Nat) (target : Text) :
    customEnabled none level target = .ok true ∧
    ∀ cb : Nat → Text → Bool, (nul ∉ target → customEnabled (some cb) level target = .ok (cb level target)) ∧
      (nul ∈ target → customEnabled (some cb) level target = .panic) := by
  refine ⟨rfl, fun cb => ⟨fun h => ?_, fun h => ?_⟩⟩
  · simp only [customEnabled, cstring, if_neg h, Res.ok_bind, Res.pure_eq, cRead_cstring h]
  · simp only [customEnabled, cstring, if_pos h, Res.panic_bind]

/-- **C185, C186 are met**: two threads install custom loggers (the first with an `enabled` that always says no); the second is refused.  Between the two steps of the
successful call the logger is installed but records are dropped; after it they are delivered although `enabled` says no. -/
theorem logger_met (r : Record) (hr : 1 ≤ r.level ∧ r.level ≤ 5) (hc : r.Clean) :
    let l1 : Logger := .custom 1 10 (some fun _ _ => false)
    let l2 : Logger := .custom 2 20 none
    ∃ h1 w1 h2 w2, Steps World.start h1 w1 ∧ w1.global = .init l1 ∧ w1.log r = .ok .dropped ∧
      Steps w1 h2 w2 ∧ successes (h1 ++ h2) = [(1, l1)] ∧ Event.returned 2 (some l2) .invalidState ∈ h1 ++ h2 ∧
      customEnabled (some fun _ _ => false) r.level r.target = .ok false ∧
      w2.log r = .ok (.callback 1 ⟨10, r.level, r.target, r.message, r.modulePath, r.file, r.line.getD 0⟩) := by
  intro l1 l2
  have a1 := Steps.one (Step.call World.start 1 l1 rfl)
  have a2 := Steps.snoc a1 (Step.call _ 2 l2 rfl)
  have a3 := Steps.snoc a2 (Step.claim _ 1 l1 rfl rfl)
  have a4 := Steps.snoc a3 (Step.publish _ 1 l1 rfl)
  let v : World := { ({ ((World.start.at 1 (.trying l1)).at 2 (.trying l2)) with global := .initializing }.at 1 (.claimed l1)) with global := .init l1 }
  have b1 := Steps.one (Step.level (v.at 1 (.published l1)) 1 l1 rfl)
  have b2 := Steps.snoc b1 (Step.refuse _ 2 l2 l1 rfl rfl)
  refine ⟨_, _, _, _, a4, rfl, ?_, b2, rfl, ?_, ?_, ?_⟩
  · simp only [World.log]
    rw [if_neg]
    show ¬ r.level ≤ 0
    omega
  · simp
  · simp [customEnabled, cstring, hc.1, Res.ok_bind, Res.pure_eq]
  · exact all_delivered (a4.trans b2) 1 1 10 (some fun _ _ => false) (by simp [successes, l1]) r hr.2 hc

end Verif.Errors
