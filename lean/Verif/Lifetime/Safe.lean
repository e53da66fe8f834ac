import Verif.Lifetime.Lemmas

/-!
# An actor that is shut down has no subscription
-/

namespace Verif.Lifetime
open Verif

/-- `e`: the plugin that is just being deactivated -/
structure Safe (c : Cfg) (e : Nat → Prop) (s : State) : Prop where
  liveN : s.live.Nodup
  fresh : ∀ x ∈ s.live, x.user = true → x.uid < s.next
  own : ∀ x ∈ s.live, (x.owner = none ∧ x ∈ s.points) ∨ ∃ p, x.owner = some p ∧ x ∈ s.own p
  ownOf : ∀ p, ∀ x ∈ s.own p, x.owner = some p
  bound : ∀ q, s.active q = true → q < c.n
  A : s.react c.shut = true → ∀ q, s.own q ≠ [] → s.active q = true
  B : s.react c.shut = false → ∀ q, q ≠ c.life → s.own q ≠ [] ∨ (s.active q = true ∧ ¬ e q) → q ∈ s.deact
  rb : ∀ i, i < c.life → s.react i = false

theorem shut_ne_life (c : Cfg) : c.shut ≠ c.life := by simp [Cfg.shut]
theorem life_lt (c : Cfg) : c.life < c.n := by have := c.hn; omega
theorem shut_lt (c : Cfg) : c.shut < c.n := by have := c.hn; simp only [Cfg.shut]; omega
theorem shut_lt_starter (c : Cfg) : c.shut < c.starter := by have := c.hn; simp only [Cfg.shut, Cfg.starter]; omega

/-- `lifetime_plugin_t::unsubscribe()` -/
structure LFacts (c : Cfg) (s s' : State) : Prop where
  st : s'.st = s.st
  own : s'.own = s.own
  points : s'.points = s.points.filter anon
  active : s'.active = s.active
  deact : s'.deact = s.deact
  react : s'.react = s.react
  live : s'.live = s.live
  next : s'.next = s.next
  log : s'.log = s.log

theorem lifeUnsub_facts {c : Cfg} {s s' : State} (he : lifeUnsub c s = .ok s') : LFacts c s s' := by
  have f := frame_markAll (s.points.filter anon).reverse s
  simp only [lifeUnsub] at he
  generalize markAll (s.points.filter anon).reverse s = s1 at *
  have base : LFacts c s { s1 with points := s.points.filter anon } :=
    ⟨f.st, f.own, rfl, f.active, f.deact, f.react, f.live, f.next, f.log⟩
  by_cases ha : s.active c.life = true
  · rw [if_pos ha] at he
    by_cases hc : s.points.filter anon = [] ∧ s1.deact.length = 1
    · rw [if_pos hc] at he
      simp only [baseDeactivate] at he
      rw [if_pos (by rw [f.active]; exact ha)] at he
      by_cases ho : s1.own c.life = []
      · rw [if_pos ho] at he
        simp [upd_self] at he
      · rw [if_neg ho] at he
        by_cases hl : s1.lifeNull = true
        · rw [if_pos hl] at he; simp at he
        · rw [if_neg hl] at he
          have g := frame_markAll (s1.own c.life).reverse { s1 with points := s.points.filter anon }
          generalize markAll (s1.own c.life).reverse { s1 with points := s.points.filter anon } = s2 at *
          simp only at he
          rw [if_pos (by rw [g.active]; exact (congrFun f.active _).trans ha)] at he
          simp only [Except.ok.injEq] at he
          subst he
          exact ⟨g.st.trans f.st, g.own.trans f.own, g.points, g.active.trans f.active, g.deact.trans f.deact, g.react.trans f.react,
            g.live.trans f.live, g.next.trans f.next, g.log.trans f.log⟩
    · rw [if_neg hc] at he
      simp only [Except.ok.injEq] at he
      subst he; exact base
  · rw [if_neg ha] at he
    split at he
    · simp at he
    · simp only [Except.ok.injEq] at he
      subst he; exact base

theorem Safe.life {c : Cfg} {e : Nat → Prop} {s s' : State} (h : Safe c e s) (f : LFacts c s s') : Safe c e s' where
  liveN := by rw [f.live]; exact h.liveN
  fresh := by rw [f.live, f.next]; exact h.fresh
  own x hx := by
    rw [f.live] at hx
    rw [f.points, f.own]
    rcases h.own x hx with ⟨h1, h2⟩ | h1
    · exact .inl ⟨h1, List.mem_filter.2 ⟨h2, by simp [anon, h1]⟩⟩
    · exact .inr h1
  ownOf := by rw [f.own]; exact h.ownOf
  bound := by rw [f.active]; exact h.bound
  A := by rw [f.react, f.own, f.active]; exact h.A
  B := by rw [f.react, f.own, f.active, f.deact]; exact h.B
  rb := by rw [f.react]; exact h.rb

/-- the plugins have been told to deactivate -/
theorem Safe.deacted {c : Cfg} {e : Nat → Prop} {s s' : State} (h : Safe c e s) (hr : s.react c.shut = true) (f : DFacts c c.order s s') :
    Safe c e { s' with react := upd s'.react c.shut false } where
  liveN := by simp only; rw [f.live]; exact h.liveN
  fresh := by simp only; rw [f.live, f.next]; exact h.fresh
  own x hx := by
    simp only at hx ⊢
    rw [f.live] at hx
    rw [f.points, f.own]
    exact h.own x hx
  ownOf p x hx := by simp only at hx; rw [f.own] at hx; exact h.ownOf p x hx
  bound q hq := h.bound q (f.actSub q hq)
  A hx := by simp [upd] at hx
  B _ q hq hq2 := by
    have ho : s.own q ≠ [] := by
      rcases hq2 with h1 | ⟨h1, _⟩
      · simp only at h1; rwa [f.own] at h1
      · exact f.actGone q hq (mem_order.2 (h.bound q (f.actSub q h1))) h1
    have ha := h.A hr q ho
    exact f.deactIn q (.inl ⟨mem_order.2 (h.bound q ha), ha⟩) (.inl ho)
  rb i hi := by
    simp only
    rw [upd_ne _ _ (by simp only [Cfg.shut]; omega)]
    cases hx : s'.react i with
    | false => rfl
    | true => have := f.react i hx; rw [h.rb i hi] at this; simp at this

theorem Safe.of {c : Cfg} {e : Nat → Prop} {s s' : State} (h : Safe c e s) (h1 : s'.live = s.live) (h2 : s'.next = s.next) (h3 : s'.points = s.points)
    (h4 : s'.own = s.own) (h5 : s'.active = s.active) (h6 : s'.deact = s.deact) (h7 : s'.react c.shut = s.react c.shut)
    (h8 : ∀ i, i < c.life → s'.react i = false) : Safe c e s' where
  liveN := by rw [h1]; exact h.liveN
  fresh := by rw [h1, h2]; exact h.fresh
  own := by rw [h1, h3, h4]; exact h.own
  ownOf := by rw [h4]; exact h.ownOf
  bound := by rw [h5]; exact h.bound
  A := by rw [h7, h4, h5]; exact h.A
  B := by rw [h7, h4, h5, h6]; exact h.B
  rb := h8

theorem range_succ_reverse (k : Nat) : (List.range (k + 1)).reverse = k :: (List.range k).reverse := by
  rw [List.range_succ, List.reverse_append]; simp

theorem pass_safe (c : Cfg) (env : Env) (e : Nat → Prop) : ∀ (k : Nat) (s s' : State) (b : Bool), k ≤ c.n → Safe c e s →
    (k ≤ c.shut → s.react c.shut = false) → (c.life < k → s.react c.life = true) → (k ≤ c.life → s.points = [] ∧ s.own c.life = []) →
    pass c env (List.range k).reverse s = .ok (s', b) →
    Safe c e s' ∧ s'.st = s.st ∧ s'.live = s.live ∧ s'.own = s.own ∧ (∀ q, s'.active q = true → s.active q = true) ∧
    (b = true → s'.react c.shut = false ∧ s'.points = [] ∧ s'.own c.life = []) ∧
    (b = false → s'.react c.life = true) := by
  intro k
  induction k with
  | zero =>
    intro s s' b _ hs h1 h2 h3 he
    simp only [List.range_zero, List.reverse_nil, pass, Except.ok.injEq, Prod.mk.injEq] at he
    obtain ⟨rfl, rfl⟩ := he
    exact ⟨hs, rfl, rfl, rfl, fun _ h => h, fun _ => ⟨h1 (Nat.zero_le _), h3 (Nat.zero_le _)⟩, by simp⟩
  | succ k ih =>
    intro s s' b hk hs h1 h2 h3 he
    rw [range_succ_reverse] at he
    simp only [pass] at he
    by_cases hr : s.react k = true
    · rw [if_pos hr] at he
      have hkl : c.life ≤ k := by
        rcases Nat.lt_or_ge k c.life with h | h
        · have := hs.rb k h; rw [hr] at this; simp at this
        · exact h
      by_cases hl : k = c.life
      · subst hl
        simp only [vote, if_true] at he
        by_cases hc : s.points = [] ∧ s.own c.life = []
        · rw [if_pos hc] at he
          simp only at he
          obtain ⟨g1, g2, g3, g4, g5, g6⟩ := ih _ s' b (by omega) (hs.of (s' := { s with react := upd s.react c.life false }) rfl rfl rfl rfl rfl rfl
            (upd_ne _ _ (shut_ne_life c)) (fun i hi => by simp only; rw [upd_ne _ _ (by omega)]; exact hs.rb i hi))
            (fun _ => by simp only; rw [upd_ne _ _ (shut_ne_life c)]; exact h1 (by simp [Cfg.shut]))
            (fun h => absurd h (Nat.lt_irrefl _)) (fun _ => hc) he
          exact ⟨g1, g2, g3, g4, g5, g6⟩
        · rw [if_neg hc] at he
          cases hu : lifeUnsub c s with
          | error x => rw [hu] at he; simp at he
          | ok s1 =>
            rw [hu] at he
            simp only [Except.ok.injEq, Prod.mk.injEq] at he
            obtain ⟨rfl, rfl⟩ := he
            have f := lifeUnsub_facts hu
            exact ⟨hs.life f, f.st, f.live, f.own, fun q hq => by rwa [f.active] at hq, by simp, fun _ => by rw [f.react]; exact hr⟩
      · by_cases hsh : k = c.shut
        · subst hsh
          simp only [vote] at he
          rw [if_neg (shut_ne_life c), if_pos trivial] at he
          cases hd : deactAll c c.order s with
          | error x => rw [hd] at he; simp at he
          | ok s1 =>
            rw [hd] at he
            simp only at he
            have f := deactAll_facts c c.order s s1 (nodup_order c) hd
            obtain ⟨g1, g2, g3, g4, g5, g6⟩ := ih _ s' b (by omega) (hs.deacted hr f) (fun _ => by simp only; exact upd_self _ _ _)
              (fun _ => by simp only; rw [upd_ne _ _ (shut_ne_life c).symm, f.reactLife]; exact h2 (by simp only [Cfg.shut]; omega))
              (fun h => by simp only [Cfg.shut] at h; omega) he
            exact ⟨g1, g2.trans f.st, g3.trans f.live, g4.trans f.own, fun q hq => f.actSub q (g5 q hq), g6⟩
        · have hgt : c.shut < k := by simp only [Cfg.shut] at hsh ⊢; omega
          simp only [vote] at he
          rw [if_neg hl, if_neg hsh] at he
          cases hv : env s.log with
          | true =>
            rw [hv] at he
            simp only at he
            obtain ⟨g1, g2, g3, g4, g5, g6⟩ := ih _ s' b (by omega)
              (hs.of (s' := { s with react := upd s.react k false, log := .answer k true :: s.log }) rfl rfl rfl rfl rfl rfl
                (upd_ne _ _ (by omega)) (fun i hi => by simp only; rw [upd_ne _ _ (by omega)]; exact hs.rb i hi))
              (fun h => by omega) (fun _ => by simp only; rw [upd_ne _ _ (Ne.symm hl)]; exact h2 (by omega))
              (fun h => by omega) he
            exact ⟨g1, g2, g3, g4, g5, g6⟩
          | false =>
            rw [hv] at he
            simp only [Except.ok.injEq, Prod.mk.injEq] at he
            obtain ⟨rfl, rfl⟩ := he
            exact ⟨hs.of rfl rfl rfl rfl rfl rfl rfl hs.rb, rfl, rfl, rfl, fun _ h => h, by simp, fun _ => h2 (by omega)⟩
    · rw [if_neg hr] at he
      have hr' : s.react k = false := by simpa using hr
      refine ih s s' b (by omega) hs (fun h => ?_) (fun h => h2 (by omega)) (fun h => ?_) he
      · by_cases e1 : k = c.shut
        · rw [← e1]; exact hr'
        · exact h1 (by omega)
      · by_cases e1 : k = c.life
        · subst e1
          have := h2 (by omega)
          rw [hr'] at this; simp at this
        · exact h3 (by omega)

theorem continue_safe (c : Cfg) (env : Env) (e : Nat → Prop) (s s' : State) (hs : Safe c e s) (hl : s.react c.life = true)
    (he : shutdownContinue c env s = .ok s') :
    Safe c e s' ∧ s'.live = s.live ∧ s'.own = s.own ∧ (∀ q, s'.active q = true → s.active q = true) ∧
    (s'.st = .shutDown → s'.live = [] ∧ s'.react c.shut = false ∧ s'.points = []) ∧ (s'.st ≠ .shutDown → s'.react c.life = true) := by
  simp only [shutdownContinue] at he
  by_cases hst : s.st = .shuttingDown
  · rw [if_pos hst] at he
    cases hp : pass c env c.order s with
    | error x => rw [hp] at he; simp at he
    | ok r =>
      obtain ⟨s1, b⟩ := r
      rw [hp] at he
      obtain ⟨g1, g2, g3, g4, g5, g6, g7⟩ := pass_safe c env e c.n s s1 b (Nat.le_refl _) hs
        (fun h => absurd (shut_lt c) (by omega)) (fun _ => hl) (fun h => absurd (life_lt c) (by omega)) hp
      cases b with
      | true =>
        obtain ⟨k1, k2, k3⟩ := g6 rfl
        simp only [finish] at he
        by_cases hd : s1.deact = []
        · rw [if_pos hd] at he
          simp only [Except.ok.injEq] at he
          subst he
          have hnil : s1.live = [] := by
            apply List.eq_nil_iff_forall_not_mem.2
            intro x hx
            rcases g1.own x hx with ⟨_, h2⟩ | ⟨p, _, h2⟩
            · rw [k2] at h2; simp at h2
            · by_cases hp : p = c.life
              · rw [hp, k3] at h2; simp at h2
              · have := g1.B k1 p hp (.inl (List.ne_nil_of_mem h2))
                rw [hd] at this; simp at this
          exact ⟨g1.of rfl rfl rfl rfl rfl rfl rfl g1.rb, g3, g4, g5, fun _ => ⟨hnil, k1, k2⟩, fun h => absurd rfl h⟩
        · rw [if_neg hd] at he; simp at he
      | false =>
        simp only [Except.ok.injEq] at he
        subst he
        exact ⟨g1, g3, g4, g5, fun h => by rw [g2, hst] at h; simp at h, fun _ => g7 rfl⟩
  · rw [if_neg hst] at he; simp at he

/-- reachable states -/
structure SafeAll (c : Cfg) (s : State) : Prop where
  safe : Safe c (fun _ => False) s
  rl : s.st ≠ .shutDown → s.react c.life = true
  dn : s.st = .shutDown → s.live = [] ∧ s.react c.shut = false ∧ s.points = []

theorem erase_safe {c : Cfg} {e : Nat → Prop} {s : State} (h : Safe c e s) (p : Nat) (x : Sub) (hx : x.owner = some p) (l : List Ev) :
    Safe c e { s with own := upd s.own p ((s.own p).erase x), live := s.live.erase x, log := l } where
  liveN := h.liveN.erase x
  fresh y hy := h.fresh y (List.mem_of_mem_erase hy)
  own y hy := by
    have hz : y ≠ x ∧ y ∈ s.live := (List.Nodup.mem_erase_iff h.liveN).1 hy
    rcases h.own y hz.2 with h1 | ⟨q, h1, h2⟩
    · exact .inl h1
    · refine .inr ⟨q, h1, ?_⟩
      simp only [upd]
      by_cases e : q = p
      · subst e; simp only [if_true]; exact (List.mem_erase_of_ne hz.1).2 h2
      · simp only [if_neg e]; exact h2
  ownOf q y hy := by
    refine h.ownOf q y ?_
    simp only [upd] at hy
    by_cases e : q = p
    · subst e; simp only [if_true] at hy; exact List.mem_of_mem_erase hy
    · simpa [e] using hy
  bound := h.bound
  A hr q hq := by
    refine h.A hr q ?_
    simp only [upd] at hq
    by_cases e : q = p
    · subst e
      intro h0
      simp [h0] at hq
    · simpa [e] using hq
  B hr q hq hq2 := by
    refine h.B hr q hq ?_
    rcases hq2 with h1 | h1
    · left
      simp only [upd] at h1
      by_cases e : q = p
      · subst e
        intro h0
        simp [h0] at h1
      · simpa [e] using h1
    · exact .inr h1
  rb := h.rb

theorem forget_safe (c : Cfg) (env : Env) (p : Nat) (x : Sub) (s s' : State) (h : SafeAll c s) (hx : x.owner = some p) (hd : s.st ≠ .shutDown)
    (he : forget c env p x s = .ok s') : SafeAll c s' := by
  have h1 := erase_safe h.safe p x hx (.removed x :: s.log)
  simp only [forget] at he
  by_cases ho : (s.own p).erase x = []
  · rw [if_pos ho] at he
    -- the plugin has no subscription left
    have h2 : Safe c (fun q => q = p) { s with own := upd s.own p ((s.own p).erase x), live := s.live.erase x, log := .removed x :: s.log, deact := s.deact.erase p } :=
      ⟨h1.liveN, h1.fresh, h1.own, h1.ownOf, h1.bound, h1.A, fun hr q hq hq2 => by
        have hne : q ≠ p := by
          rintro rfl
          rcases hq2 with h3 | ⟨_, h3⟩
          · simp only [upd_self] at h3; exact h3 ho
          · exact h3 rfl
        simp only
        rw [List.mem_erase_of_ne hne]
        refine h1.B hr q hq ?_
        rcases hq2 with h3 | ⟨h3, _⟩
        · exact .inl h3
        · exact .inr ⟨h3, fun h => h⟩, h1.rb⟩
    have fin : ∀ s3 : State, Safe c (fun q => q = p) s3 → s3.own p = [] → Safe c (fun _ => False) { s3 with active := upd s3.active p false } := by
      intro s3 h3 ho3
      refine ⟨h3.liveN, h3.fresh, h3.own, h3.ownOf, ?_, ?_, ?_, h3.rb⟩
      · intro q hq
        simp only [upd] at hq
        by_cases e : q = p
        · simp [e] at hq
        · exact h3.bound q (by simpa [e] using hq)
      · intro hr q hq
        simp only [upd]
        by_cases e : q = p
        · subst e; exact absurd ho3 hq
        · simp only [if_neg e]; exact h3.A hr q hq
      · intro hr q hq hq2
        refine h3.B hr q hq ?_
        rcases hq2 with h4 | ⟨h4, _⟩
        · exact .inl h4
        · simp only [upd] at h4
          by_cases e : q = p
          · simp [e] at h4
          · exact .inr ⟨by simpa [e] using h4, e⟩
    by_cases hst : s.st = .shuttingDown
    · rw [if_pos hst] at he
      cases hc : shutdownContinue c env { s with own := upd s.own p ((s.own p).erase x), live := s.live.erase x, log := .removed x :: s.log, deact := s.deact.erase p } with
      | error y => rw [hc] at he; simp at he
      | ok s3 =>
        rw [hc] at he
        simp only [Except.ok.injEq] at he
        subst he
        obtain ⟨g1, g2, g3, g4, g5, g6⟩ := continue_safe c env _ _ s3 h2 (h.rl hd) hc
        exact ⟨fin s3 g1 (by rw [g3]; simp only [upd_self]; exact ho), g6, g5⟩
    · rw [if_neg hst] at he
      simp only [Except.ok.injEq] at he
      subst he
      exact ⟨fin _ h2 (by simp only [upd_self]; exact ho), h.rl, fun h => absurd h hd⟩
  · rw [if_neg ho] at he
    simp only [Except.ok.injEq] at he
    subst he
    exact ⟨h1, h.rl, fun h => absurd h hd⟩

theorem forgetAnon_safe (c : Cfg) (x : Sub) (s s' : State) (h : SafeAll c s) (hd : s.st ≠ .shutDown)
    (hl : s.own c.life ≠ []) (he : forgetAnon c x s = .ok s') : SafeAll c s' := by
  have h1 : Safe c (fun _ => False) { s with points := s.points.erase x, live := s.live.erase x, log := .removed x :: s.log } :=
    ⟨h.safe.liveN.erase x, fun y hy => h.safe.fresh y (List.mem_of_mem_erase hy), fun y hy => by
      have hy := (List.Nodup.mem_erase_iff h.safe.liveN).1 hy
      rcases h.safe.own y hy.2 with ⟨h1, h2⟩ | h1
      · exact .inl ⟨h1, (List.mem_erase_of_ne hy.1).2 h2⟩
      · exact .inr h1, h.safe.ownOf, h.safe.bound, h.safe.A, h.safe.B, h.safe.rb⟩
  simp only [forgetAnon] at he
  split at he
  · rename_i hc
    split at he
    · simp only [baseDeactivate] at he
      rw [if_pos hc.2, if_neg hl] at he
      split at he
      · simp at he
      · simp only [Except.ok.injEq] at he
        subst he
        have f := frame_markAll (s.own c.life).reverse { s with points := s.points.erase x, live := s.live.erase x, log := .removed x :: s.log }
        generalize markAll (s.own c.life).reverse { s with points := s.points.erase x, live := s.live.erase x, log := .removed x :: s.log } = s2 at *
        refine ⟨h1.of f.live f.next f.points f.own f.active f.deact (congrFun f.react _) (fun i hi => (congrFun f.react _).trans (h.safe.rb i hi)),
          fun _ => (congrFun f.react _).trans (h.rl hd), fun h3 => absurd (f.st.symm.trans h3) hd⟩
    · simp only [Except.ok.injEq] at he
      subst he
      exact ⟨h1, h.rl, fun h => absurd h hd⟩
  · simp at he

theorem subscribe_safe (c : Cfg) (b x : Bool) (s s' : State) (h : SafeAll c s) (hd : s.st ≠ .shutDown) (he : subscribe c b x s = .ok s') : SafeAll c s' := by
  simp only [subscribe] at he
  split at he
  · simp at he
  · rename_i hc
    simp only [Except.ok.injEq] at he
    have hnew : (⟨if b then some c.starter else none, true, s.next, x⟩ : Sub) ∉ s.live := fun hm => absurd (h.safe.fresh _ hm rfl) (Nat.lt_irrefl _)
    have hN : (s.live ++ [(⟨if b then some c.starter else none, true, s.next, x⟩ : Sub)]).Nodup := by
      simp only [List.nodup_append, List.nodup_cons, List.not_mem_nil, not_false_eq_true, List.nodup_nil, and_self, List.mem_cons, or_false, true_and]
      refine ⟨h.safe.liveN, ?_⟩
      intro y hy z hz hyz
      subst hz hyz
      exact hnew hy
    have hF : ∀ y ∈ s.live ++ [(⟨if b then some c.starter else none, true, s.next, x⟩ : Sub)], y.user = true → y.uid < s.next + 1 := by
      intro y hy hu
      rcases List.mem_append.1 hy with hy | hy
      · exact Nat.lt_succ_of_lt (h.safe.fresh y hy hu)
      · rw [List.mem_singleton] at hy; subst hy; exact Nat.lt_succ_self _
    cases b with
    | true =>
      simp only [if_true] at he hN hF hc
      subst he
      have hact : s.active c.starter = true := by
        cases ha : s.active c.starter with
        | true => rfl
        | false => exact absurd (.inr ⟨trivial, by simp [ha]⟩) hc
      refine ⟨⟨hN, hF, ?_, ?_, h.safe.bound, ?_, ?_, h.safe.rb⟩, h.rl, fun h => absurd h hd⟩
      · intro y hy
        rcases List.mem_append.1 hy with hy | hy
        · rcases h.safe.own y hy with ⟨h1, h2⟩ | ⟨p, h1, h2⟩
          · exact .inl ⟨h1, List.mem_append_left _ h2⟩
          · refine .inr ⟨p, h1, ?_⟩
            simp only [upd]
            by_cases e : p = c.starter
            · subst e; simp only [if_true]; exact List.mem_append_left _ h2
            · simp only [if_neg e]; exact h2
        · rw [List.mem_singleton] at hy; subst hy
          exact .inr ⟨c.starter, rfl, by simp only [upd_self]; simp⟩
      · intro q y hy
        simp only [upd] at hy
        by_cases e : q = c.starter
        · subst e
          simp only [if_true, List.mem_append, List.mem_singleton] at hy
          rcases hy with hy | rfl
          · exact h.safe.ownOf _ y hy
          · rfl
        · simp only [if_neg e] at hy; exact h.safe.ownOf q y hy
      · intro hr q hq
        by_cases e : q = c.starter
        · rw [e]; exact hact
        · simp only [upd, if_neg e] at hq; exact h.safe.A hr q hq
      · intro hr q hq hq2
        by_cases e : q = c.starter
        · subst e; exact h.safe.B hr _ hq (.inr ⟨hact, fun h => h⟩)
        · simp only [upd, if_neg e] at hq2; exact h.safe.B hr q hq hq2
    | false =>
      simp only [Bool.false_eq_true, if_false] at he hN hF
      subst he
      refine ⟨⟨hN, hF, ?_, h.safe.ownOf, h.safe.bound, h.safe.A, h.safe.B, h.safe.rb⟩, h.rl, fun h => absurd h hd⟩
      intro y hy
      rcases List.mem_append.1 hy with hy | hy
      · rcases h.safe.own y hy with ⟨h1, h2⟩ | h1
        · exact .inl ⟨h1, List.mem_append_left _ h2⟩
        · exact .inr h1
      · rw [List.mem_singleton] at hy; subst hy
        exact .inl ⟨rfl, by simp⟩

theorem SafeAll.mark {c : Cfg} {s : State} (h : SafeAll c s) (x : Sub) : SafeAll c (mark x s) := by
  have f := frame_mark x s
  exact ⟨h.safe.of f.live f.next f.points f.own f.active f.deact (congrFun f.react _) (fun i hi => (congrFun f.react _).trans (h.safe.rb i hi)),
    fun h1 => (congrFun f.react _).trans (h.rl (by rw [← f.st]; exact h1)), fun h1 => by
      rw [f.live, f.react, f.points]; exact h.dn (by rw [← f.st]; exact h1)⟩

theorem SafeAll.queue {c : Cfg} {s : State} (h : SafeAll c s) (q : List Sub) : SafeAll c { s with queue := q } :=
  ⟨h.safe.of rfl rfl rfl rfl rfl rfl rfl h.safe.rb, h.rl, h.dn⟩

theorem step_safe (c : Cfg) (env : Env) (s s' : State) (op : Op) (h : SafeAll c s) (he : step c env s op = .ok s') : SafeAll c s' := by
  cases op with
  | request =>
    simp only [step] at he
    split at he
    · rename_i hr
      have hd : s.st ≠ .shutDown := by intro e; rw [e] at hr; simp [AState.rank] at hr
      obtain ⟨g1, g2, g3, g4, g5, g6⟩ := continue_safe c env (fun _ => False) { s with st := .shuttingDown } s' (h.safe.of rfl rfl rfl rfl rfl rfl rfl h.safe.rb) (h.rl hd) he
      exact ⟨g1, g6, g5⟩
    · simp at he
  | cont p =>
    simp only [step] at he
    split at he
    · rename_i hr
      obtain ⟨g1, g2, g3, g4, g5, g6⟩ := continue_safe c env (fun _ => False) s s' h.safe (h.rl (by rw [hr.1]; simp)) he
      exact ⟨g1, g6, g5⟩
    · simp at he
  | join p =>
    simp only [step] at he
    split at he
    · rename_i hr
      simp only [Except.ok.injEq] at he
      subst he
      have hls : c.life < c.shut := by simp [Cfg.shut]
      refine ⟨h.safe.of rfl rfl rfl rfl rfl rfl (upd_ne _ _ (by omega)) (fun i hi => ?_), fun hd => ?_, fun hd => ?_⟩
      · simp only; rw [upd_ne _ _ (by omega)]; exact h.safe.rb i hi
      · simp only; rw [upd_ne _ _ (by omega)]; exact h.rl hd
      · have := (h.dn hd).2.1; rw [hr.1] at this; simp at this
    · simp at he
  | confirm =>
    simp only [step, confirm] at he
    cases hq : s.queue with
    | nil => rw [hq] at he; simp only [Except.ok.injEq] at he; subst he; exact h
    | cons x rest =>
      rw [hq] at he
      simp only at he
      by_cases hd : s.st = .shutDown
      · have hl := (h.dn hd).1
        rw [if_neg (show hExt c ∉ s.live by rw [hl]; simp), if_neg (show hInt c ∉ s.live by rw [hl]; simp)] at he
        split at he
        · simp only [Except.ok.injEq] at he; subst he; exact h.queue rest
        · simp only [Except.ok.injEq] at he; subst he; exact h.queue rest
      · split at he
        · split at he
          · split at he
            · rename_i hx
              exact forget_safe c env _ x _ s' (h.queue rest) (h.safe.ownOf _ x hx) hd he
            · simp at he
          · simp only [Except.ok.injEq] at he; subst he; exact h.queue rest
        · split at he
          · rename_i hi
            split at he
            · refine forgetAnon_safe c x _ s' (h.queue rest) hd ?_ he
              rcases h.safe.own _ hi with ⟨h1, _⟩ | ⟨p, h1, h2⟩
              · simp [hInt] at h1
              · simp only [hInt, Option.some.injEq] at h1
                subst h1
                exact List.ne_nil_of_mem h2
            · rename_i p hon
              split at he
              · exact forget_safe c env p x _ s' (h.queue rest) hon hd he
              · simp only [Except.ok.injEq] at he; subst he; exact h.queue rest
          · simp only [Except.ok.injEq] at he; subst he; exact h.queue rest
  | subscribe b x =>
    simp only [step] at he
    split at he
    · rename_i hr
      exact subscribe_safe c b x s s' h (fun hd => by have := (h.dn hd).2.1; rw [hr] at this; simp at this) he
    · simp at he
  | unsubscribe x =>
    simp only [step] at he
    split at he
    · simp only [Except.ok.injEq] at he; subst he; exact h.mark x
    · simp at he
  | lateSubscribe b x =>
    simp only [step] at he
    split at he
    · rename_i hr
      exact subscribe_safe c b x s s' h (by rw [hr.2]; simp) he
    · simp at he
  | lateUnsubscribe x =>
    simp only [step] at he
    split at he
    · split at he
      · simp at he
      · simp only [Except.ok.injEq] at he; subst he; exact h.mark x
    · simp at he

end Verif.Lifetime
