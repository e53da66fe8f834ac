import Verif.Lifetime.Good

namespace Verif.Lifetime
open Verif

theorem continue_B {c : Cfg} {e : Nat → Prop} {s : State} (env : Env) (h : B0 c e s) (hn : s.lifeNull = false) (hl : L1 c s ∨ L2 c s) :
    ∃ s', shutdownContinue c env s = .ok s' ∧ B0 c e s' ∧ (∀ x ∈ s'.points, x.owner = none ∧ x ∈ s'.uns) ∧ s'.live = s.live ∧ s'.own = s.own ∧
      ((L1 c s' ∧ (s'.points ≠ [] ∨ s'.deact ≠ [c.life])) ∨ (L2 c s' ∧ (s'.lifeNull = true → s'.deact = [c.life]))) := by
  obtain ⟨s', h1, h2⟩ := ask_life h hn hl
  have hown : s.own c.life ≠ [] := by
    rcases hl with h1 | ⟨q1, _, h1, _⟩
    · rw [h1.1, core_life]; simp
    · exact h1
  have hp := (pass_life c env c.n s (life_lt c) (fun i h3 h4 => by
    by_cases e : i = c.shut
    · rw [e]; exact h.rs
    · exact h.ra i (by simp only [Cfg.shut] at e ⊢; omega) h4) h.com.rb h.com.rl).2 (fun hx => hown hx.2) s' h1
  refine ⟨s', ?_, h2⟩
  simp only [shutdownContinue]
  rw [if_pos h.st, show c.order = (List.range c.n).reverse from rfl, hp]

theorem PA.deacted {c : Cfg} {s s' : State} (h : PA c s) (hst : s.st = .shuttingDown) (hr : ∀ i, c.shut < i → i < c.n → s.react i = false)
    (f : DFacts c c.order s s') :
    B0 c (fun _ => False) { s' with react := upd s'.react c.shut false } ∧ L1 c { s' with react := upd s'.react c.shut false } ∧ s'.lifeNull = false := by
  have hlive : ∀ q, ∀ x ∈ s.own q, x ∈ s.live := fun q x hx => (h.com.loS x q (h.com.ownOf q x hx)).2 hx
  have hact : ∀ p, s.own p ≠ [] → s.active p = true := by
    intro p hp
    rw [h.active]
    rcases Nat.lt_or_ge p c.n with h1 | h1
    · exact h1
    · exact absurd (h.ownB p h1) hp
  have hls : c.life < c.shut := by simp [Cfg.shut]
  refine ⟨{ com := ?_, rs := upd_self _ _ _, st := f.st.trans hst, ra := ?_, uns := ?_, deact := ?_, dN := ?_, dL := ?_, act := ?_, aL := ?_ }, ⟨?_, ?_, ?_⟩, ?_⟩
  · exact {
      liveN := by simp only; rw [f.live]; exact h.com.liveN
      loN := by simp only; rw [f.live, f.points]; exact h.com.loN
      loS := by simp only; rw [f.live, f.own]; exact h.com.loS
      ownOf := by simp only; rw [f.own]; exact h.com.ownOf
      ownN := by simp only; rw [f.own]; exact h.com.ownN
      userOf := by simp only; rw [f.own]; exact h.com.userOf
      pointsN := by simp only; rw [f.points]; exact h.com.pointsN
      fresh := fun x hx h1 => by
        simp only at h1 ⊢
        rw [f.live, f.points, f.uns] at h1
        rw [f.next]
        rcases h1 with h1 | h1 | h1 | ⟨q, _, _, _, h1⟩
        · exact h.com.fresh x hx (.inl h1)
        · exact h.com.fresh x hx (.inr (.inl h1))
        · exact h.com.fresh x hx (.inr (.inr h1))
        · exact h.com.fresh x hx (.inl (hlive q x h1))
      extT := by simp only; rw [f.live]; exact h.com.extT
      q := (f.q hlive h.com.q).of rfl rfl rfl
      rb := fun i hi => by
        simp only
        rw [upd_ne _ _ (by omega)]
        cases hx : s'.react i with
        | false => rfl
        | true => have := f.react i hx; rw [h.com.rb i hi] at this; simp at this
      rl := by
        simp only
        rw [upd_ne _ _ (by omega), f.reactLife]; exact h.com.rl }
  · intro i h1 h2
    simp only
    rw [upd_ne _ _ (by omega)]
    cases hx : s'.react i with
    | false => rfl
    | true => have := f.react i hx; rw [hr i h1 h2] at this; simp at this
  · intro p hp x hx
    simp only at hx ⊢
    rw [f.own] at hx
    rw [f.uns]
    have ha := hact p (List.ne_nil_of_mem hx)
    exact .inr ⟨p, mem_order.2 ((h.active p).1 ha), hp, ha, hx⟩
  · intro p hp
    simp only
    rw [f.own]
    constructor
    · intro h1
      rcases f.deactSub p h1 with h2 | ⟨h2, h3⟩
      · rw [h.deact] at h2; simp at h2
      · exact (f.deactOut (by rw [h.deact]; simp)).2 p hp h2 h3 h1
    · intro h1
      have ha := hact p h1
      exact f.deactIn p (.inl ⟨mem_order.2 ((h.active p).1 ha), ha⟩) (.inl h1)
  · exact (f.deactOut (by rw [h.deact]; simp)).1
  · exact f.deactIn c.life (.inl ⟨mem_order.2 (life_lt c), (h.active _).2 (life_lt c)⟩) (.inr rfl)
  · intro p hp _ ha
    simp only
    rw [f.own]
    exact f.actGone p hp (mem_order.2 ((h.active p).1 (f.actSub p ha))) ha
  · simp only; rw [f.actLife]; exact (h.active _).2 (life_lt c)
  · simp only; rw [f.own]; exact h.ownLife
  · intro x hx
    simp only
    rw [f.uns]
    rintro (h1 | ⟨q, _, h2, _, h3⟩)
    · exact (h.core c.life (life_lt c) x hx).2 h1
    · have := h.com.ownOf q x h3
      rw [(core_of hx).1] at this
      exact h2 (Option.some.inj this).symm
  · simp only; rw [f.lifeNull]; exact h.null
  · rw [f.lifeNull]; exact h.null

theorem PA.of {c : Cfg} {s s' : State} (h : PA c s) (h1 : s'.live = s.live) (h2 : s'.next = s.next) (h3 : s'.points = s.points)
    (h4 : s'.own = s.own) (h5 : s'.queue = s.queue) (h6 : s'.uns = s.uns) (h7 : ∀ i, i ≤ c.shut → s'.react i = s.react i)
    (h8 : s'.st ≠ .shutDown) (h9 : s'.deact = s.deact) (h10 : s'.lifeNull = s.lifeNull) (h11 : s'.active = s.active) : PA c s' where
  com := h.com.of h1 h2 h3 h4 h5 h6 (fun i hi => h7 i (by simp only [Cfg.shut]; omega))
  rs := (h7 _ (Nat.le_refl _)).trans h.rs
  st := h8
  deact := h9.trans h.deact
  null := h10.trans h.null
  active := by rw [h11]; exact h.active
  core := by rw [h4, h6]; exact h.core
  ownLife := by rw [h4]; exact h.ownLife
  ownB := by rw [h4]; exact h.ownB
  ownCore := by rw [h4]; exact h.ownCore
  pts := by rw [h1, h3, h6]; exact h.pts
  hp := by rw [h3]; exact h.hp

theorem pass_A (c : Cfg) (env : Env) : ∀ (k : Nat) (s : State), c.shut ≤ k → k < c.n → PA c s → s.st = .shuttingDown →
    (∀ i, k < i → i < c.n → s.react i = false) →
    ∃ s', pass c env (List.range (k + 1)).reverse s = .ok (s', false) ∧ (PA c s' ∨ PB c s') ∧ s'.live = s.live ∧ s'.st = .shuttingDown ∧
      ((∀ l, env l = true) → PB c s') := by
  intro k
  induction k with
  | zero => intro s h; simp [Cfg.shut] at h
  | succ k ih =>
    intro s hk hn h hst hr
    rw [range_succ_reverse]
    simp only [pass]
    by_cases hs : k + 1 = c.shut
    · rw [hs, if_pos h.rs]
      simp only [vote]
      rw [if_neg (shut_ne_life c)]
      simp only [if_true]
      obtain ⟨s1, hd⟩ := deactAll_ok c c.order s h.null
      rw [hd]
      simp only
      have f := deactAll_facts c c.order s s1 (nodup_order c) hd
      obtain ⟨hb, hl, hnull⟩ := h.deacted hst (fun i h1 h2 => hr i (by omega) h2) f
      obtain ⟨s2, g1, g2, g3, g4, g5, g6⟩ := ask_life hb hnull (.inl hl)
      have hown : s1.own c.life ≠ [] := by rw [f.own, h.ownLife, core_life]; simp
      have hls : c.life < c.shut := by simp [Cfg.shut]
      refine ⟨s2, ?_, .inr ⟨g2, g3, g6⟩, g4.trans f.live, g2.st, fun _ => ⟨g2, g3, g6⟩⟩
      exact (pass_life c env c.shut _ hls (fun i h3 h4 => absurd h4 (by simp only [Cfg.shut]; omega)) hb.com.rb hb.com.rl).2 (fun hx => hown hx.2) s2 g1
    · by_cases hrk : s.react (k + 1) = true
      · rw [if_pos hrk]
        simp only [vote]
        have hgt : c.shut < k + 1 := by omega
        have hls : c.life < c.shut := by simp [Cfg.shut]
        rw [if_neg (by omega), if_neg hs]
        cases hv : env s.log with
        | true =>
          simp only
          obtain ⟨s', g1, g2, g3, g4, g5⟩ := ih { s with react := upd s.react (k + 1) false, log := .answer (k + 1) true :: s.log } (by omega) (by omega)
            (h.of rfl rfl rfl rfl rfl rfl (fun i hi => upd_ne _ _ (by omega)) h.st rfl rfl rfl) hst (fun i h1 h2 => by
              simp only [upd]
              by_cases e : i = k + 1
              · simp [e]
              · simp only [if_neg e]; exact hr i (by omega) h2)
          exact ⟨s', g1, g2, g3, g4, g5⟩
        | false =>
          simp only
          refine ⟨_, rfl, .inl (h.of rfl rfl rfl rfl rfl rfl (fun _ _ => rfl) h.st rfl rfl rfl), rfl, hst, fun hall => ?_⟩
          rw [hall] at hv; simp at hv
      · rw [if_neg hrk]
        exact ih s (by omega) (by omega) h hst (fun i h1 h2 => by
          by_cases e : i = k + 1
          · rw [e]; simpa using hrk
          · exact hr i (by omega) h2)

theorem continue_A {c : Cfg} {s : State} (env : Env) (h : PA c s) (hst : s.st = .shuttingDown) :
    ∃ s', shutdownContinue c env s = .ok s' ∧ (PA c s' ∨ PB c s') ∧ s'.live = s.live ∧ s'.st = .shuttingDown ∧ ((∀ l, env l = true) → PB c s') := by
  have hn := c.hn
  obtain ⟨s', g1, g2⟩ := pass_A c env (c.n - 1) s (by simp only [Cfg.shut]; omega) (by omega) h hst (fun i h1 h2 => by omega)
  refine ⟨s', ?_, g2⟩
  simp only [shutdownContinue]
  rw [if_pos hst, show c.order = (List.range (c.n - 1 + 1)).reverse by rw [show c.n - 1 + 1 = c.n by omega]; rfl, g1]

/-- a subscription of a plugin other than the lifetime plugin leaves -/
theorem Com.remove {c : Cfg} {s : State} (h : Com c s) {x : Sub} {p : Nat} {rest : List Sub} (hx : x.owner = some p) (hq : s.queue = x :: rest) (l : List Ev) :
    Com c { s with queue := rest, own := upd s.own p ((s.own p).erase x), live := s.live.erase x, log := l } := by
  have hqn := h.q.1
  rw [hq, List.nodup_cons] at hqn
  have hmem : ∀ q y, y ∈ upd s.own p ((s.own p).erase x) q → y ∈ s.own q := by
    intro q y hy
    simp only [upd] at hy
    by_cases e : q = p
    · subst e; simp only [if_true] at hy; exact List.mem_of_mem_erase hy
    · simpa [e] using hy
  exact {
    liveN := h.liveN.erase x
    loN := fun y hy => by
      have hne : y ≠ x := by rintro rfl; rw [hx] at hy; simp at hy
      simp only
      rw [List.mem_erase_of_ne hne]
      exact h.loN y hy
    loS := fun y q hy => by
      simp only
      rw [List.Nodup.mem_erase_iff h.liveN]
      simp only [upd]
      by_cases e : q = p
      · subst e
        simp only [if_true]
        rw [List.Nodup.mem_erase_iff (h.ownN q), h.loS y q hy]
      · simp only [if_neg e]
        have hne : y ≠ x := by rintro rfl; rw [hx] at hy; exact e (Option.some.inj hy).symm
        rw [h.loS y q hy]
        exact ⟨fun h => h.2, fun h => ⟨hne, h⟩⟩
    ownOf := fun q y hy => h.ownOf q y (hmem q y hy)
    ownN := fun q => by
      simp only [upd]
      by_cases e : q = p
      · subst e; simp only [if_true]; exact (h.ownN q).erase x
      · simp only [if_neg e]; exact h.ownN q
    userOf := fun q y hy => h.userOf q y (hmem q y hy)
    pointsN := h.pointsN
    fresh := fun y hy h1 => by
      refine h.fresh y hy ?_
      rcases h1 with h1 | h1
      · exact .inl (List.mem_of_mem_erase h1)
      · exact .inr h1
    extT := fun y hy => h.extT y (List.mem_of_mem_erase hy)
    q := by
      refine ⟨hqn.2, fun y => ?_⟩
      simp only
      rw [List.Nodup.mem_erase_iff h.liveN]
      have := h.q.2 y
      rw [hq, List.mem_cons] at this
      constructor
      · intro hy
        have h2 := this.1 (.inr hy)
        exact ⟨⟨fun e => hqn.1 (e ▸ hy), h2.1⟩, h2.2⟩
      · rintro ⟨⟨h1, h2⟩, h3⟩
        rcases this.2 ⟨h2, h3⟩ with h4 | h4
        · exact absurd h4 h1
        · exact h4
    rb := h.rb
    rl := h.rl }

/-- an anonymous subscription leaves -/
theorem Com.removeAnon {c : Cfg} {s : State} (h : Com c s) {x : Sub} {rest : List Sub} (hx : x.owner = none) (hq : s.queue = x :: rest) (l : List Ev) :
    Com c { s with queue := rest, points := s.points.erase x, live := s.live.erase x, log := l } := by
  have hqn := h.q.1
  rw [hq, List.nodup_cons] at hqn
  exact {
    liveN := h.liveN.erase x
    loN := fun y hy => by
      simp only
      rw [List.Nodup.mem_erase_iff h.liveN, List.Nodup.mem_erase_iff h.pointsN, h.loN y hy]
    loS := fun y q hy => by
      have hne : y ≠ x := by rintro rfl; rw [hx] at hy; simp at hy
      simp only
      rw [List.mem_erase_of_ne hne]
      exact h.loS y q hy
    ownOf := h.ownOf
    ownN := h.ownN
    userOf := h.userOf
    pointsN := h.pointsN.erase x
    fresh := fun y hy h1 => by
      refine h.fresh y hy ?_
      rcases h1 with h1 | h1 | h1
      · exact .inl (List.mem_of_mem_erase h1)
      · exact .inr (.inl (List.mem_of_mem_erase h1))
      · exact .inr (.inr h1)
    extT := fun y hy => h.extT y (List.mem_of_mem_erase hy)
    q := by
      refine ⟨hqn.2, fun y => ?_⟩
      simp only
      rw [List.Nodup.mem_erase_iff h.liveN]
      have := h.q.2 y
      rw [hq, List.mem_cons] at this
      constructor
      · intro hy
        have h2 := this.1 (.inr hy)
        exact ⟨⟨fun e => hqn.1 (e ▸ hy), h2.1⟩, h2.2⟩
      · rintro ⟨⟨h1, h2⟩, h3⟩
        rcases this.2 ⟨h2, h3⟩ with h4 | h4
        · exact absurd h4 h1
        · exact h4
    rb := h.rb
    rl := h.rl }

theorem hInt_core (c : Cfg) : hInt c ∈ core c c.life := by rw [core_life]; simp
theorem hExt_core (c : Cfg) : hExt c ∈ core c c.life := by rw [core_life]; simp

/-- a confirmation before the deactivation -/
theorem confirm_A {c : Cfg} {s : State} (env : Env) (h : PA c s) : ∃ s', confirm c env s = .ok s' ∧ PA c s' := by
  simp only [confirm]
  cases hq : s.queue with
  | nil => exact ⟨s, rfl, h⟩
  | cons x rest =>
    simp only
    obtain ⟨hxl, hxu⟩ := (h.com.q.2 x).1 (by rw [hq]; simp)
    have hliv : ∀ y ∈ core c c.life, y ∈ s.live := fun y hy =>
      (h.com.loS y c.life (core_of hy).1).2 (h.core c.life (life_lt c) y hy).1
    -- what happens if a plugin has it
    have key : ∀ p, x.owner = some p → ∃ s', forget c env p x { s with queue := rest } = .ok s' ∧ PA c s' := by
      intro p hp
      have hxo := (h.com.loS x p hp).1 hxl
      have hpn : p < c.n := by
        rcases Nat.lt_or_ge p c.n with h1 | h1
        · exact h1
        · rw [h.ownB p h1] at hxo; simp at hxo
      have hxc : ∀ q, x ∉ core c q := by
        intro q hx
        have h1 := (core_of hx).1
        rw [hp] at h1
        have h2 := Option.some.inj h1
        subst h2
        exact (h.core p hpn x hx).2 hxu
      -- it is a subscription of the user
      have hlife : p ≠ c.life := by
        rintro rfl
        rw [h.ownLife] at hxo
        exact hxc _ hxo
      have hcm := h.com.remove hp hq (.removed x :: s.log)
      have hkeep : ∀ q y, y ∈ s.own q → y ≠ x → y ∈ upd s.own p ((s.own p).erase x) q := by
        intro q y hy hne
        simp only [upd]
        by_cases e : q = p
        · subst e; simp only [if_true]; rw [List.mem_erase_of_ne hne]; exact hy
        · simp only [if_neg e]; exact hy
      have hne : (s.own p).erase x ≠ [] := by
        by_cases hu : x.user = true
        · have h1 := h.com.userOf p x hxo hu
          have h2 : (⟨some p, false, 0, false⟩ : Sub) ∈ core c p := by
            simp only [core, List.mem_map, List.mem_range]
            exact ⟨0, by rw [h1]; exact c.hstart, rfl⟩
          have h3 := hkeep p _ (h.core p hpn _ h2).1 (fun e => hxc p (e ▸ h2))
          rw [upd_self] at h3
          exact List.ne_nil_of_mem h3
        · exact absurd (h.ownCore p x hxo (by simpa using hu)) (hxc p)
      simp only [forget]
      rw [if_neg hne]
      refine ⟨_, rfl, ⟨hcm, h.rs, h.st, h.deact, h.null, h.active, ?_, ?_, ?_, ?_, ?_, h.hp⟩⟩
      · intro q hq y hy
        exact ⟨hkeep q y (h.core q hq y hy).1 (fun e => hxc q (e ▸ hy)), (h.core q hq y hy).2⟩
      · simp only; rw [upd_ne _ _ (Ne.symm hlife)]; exact h.ownLife
      · intro q hq
        simp only
        rw [upd_ne _ _ (by omega)]
        exact h.ownB q hq
      · intro q y hy
        refine h.ownCore q y ?_
        simp only [upd] at hy
        by_cases e : q = p
        · subst e; simp only [if_true] at hy; exact List.mem_of_mem_erase hy
        · simpa [e] using hy
      · intro y hy hu
        by_cases e : y = x
        · rw [e]; exact .inr hxu
        · simp only; rw [List.mem_erase_of_ne e]; exact h.pts y hy hu
    by_cases he : x.ext = true
    · rw [if_pos he, if_pos (hliv _ (hExt_core c))]
      have ho := h.com.extT x hxl he
      rw [if_pos ((h.com.loS x _ ho).1 hxl)]
      exact key _ ho
    · rw [if_neg he, if_pos (hliv _ (hInt_core c))]
      cases ho : x.owner with
      | some p =>
        simp only
        rw [if_pos ((h.com.loS x _ ho).1 hxl)]
        exact key _ ho
      | none =>
        simp only [forgetAnon]
        rw [if_pos ⟨(h.com.loN x ho).1 hxl, (h.active _).2 (life_lt c)⟩]
        have hI : hInt c ∈ s.points.erase x := by
          rw [List.mem_erase_of_ne (by rintro rfl; simp [hInt] at ho)]
          exact h.hp
        rw [if_neg (List.ne_nil_of_mem hI)]
        exact ⟨_, rfl, ⟨h.com.removeAnon ho hq _, h.rs, h.st, h.deact, h.null, h.active, h.core, h.ownLife, h.ownB, h.ownCore, fun y hy hu => by
          by_cases e : y = x
          · rw [e]; exact .inr hxu
          · simp only; rw [List.mem_erase_of_ne e]; exact h.pts y (List.mem_of_mem_erase hy) hu, hI⟩⟩

theorem mem_erase_upd {f : Nat → List Sub} {p q : Nat} {x y : Sub} (h : y ∈ upd f p ((f p).erase x) q) : y ∈ f q := by
  simp only [upd] at h
  by_cases e : q = p
  · subst e; simp only [if_true] at h; exact List.mem_of_mem_erase h
  · simpa [e] using h

/-- a plugin other than the lifetime plugin loses a subscription -/
theorem forget_B {c : Cfg} {s : State} (env : Env) (h : PB c s) {x : Sub} {p : Nat} {rest : List Sub} (hq : s.queue = x :: rest)
    (hp : x.owner = some p) (hl : p ≠ c.life) :
    ∃ s', forget c env p x { s with queue := rest } = .ok s' ∧ PB c s' ∧ s'.live = s.live.erase x := by
  obtain ⟨hxl, hxu⟩ := (h.b.com.q.2 x).1 (by rw [hq]; simp)
  have hxo := (h.b.com.loS x p hp).1 hxl
  have hpd : p ∈ s.deact := (h.b.deact p hl).2 (List.ne_nil_of_mem hxo)
  have hnull : s.lifeNull = false := by
    rcases h.l with ⟨h1, _⟩ | ⟨_, h1⟩
    · exact h1.2.2
    · cases hn : s.lifeNull with
      | false => rfl
      | true => rw [h1 hn, List.mem_singleton] at hpd; exact absurd hpd hl
  have hcm := h.b.com.remove hp hq (.removed x :: s.log)
  have hL1 : L1 c s → ∀ d, L1 c { s with queue := rest, own := upd s.own p ((s.own p).erase x), live := s.live.erase x, log := .removed x :: s.log, deact := d } := by
    rintro ⟨h1, h2, h3⟩ d
    exact ⟨by simp only; rw [upd_ne _ _ (Ne.symm hl)]; exact h1, h2, h3⟩
  have hL2 : L2 c s → ∀ d, L2 c { s with queue := rest, own := upd s.own p ((s.own p).erase x), live := s.live.erase x, log := .removed x :: s.log, deact := d } := by
    rintro ⟨q1, h1, h2, h3, h4, h5⟩ d
    cases q1 with
    | nil =>
      exfalso
      have : x ∈ (s.own c.life).reverse := by
        rw [hq, List.nil_append] at h1
        rw [← h1]; simp
      have := h.b.com.ownOf _ x (by simpa using this)
      rw [hp] at this
      exact hl (Option.some.inj this)
    | cons y q1 =>
      rw [hq, List.cons_append, List.cons.injEq] at h1
      refine ⟨q1, ?_, ?_, ?_, ?_, h5⟩
      · simp only; rw [upd_ne _ _ (Ne.symm hl)]; exact h1.2
      · simp only; rw [upd_ne _ _ (Ne.symm hl)]; exact h2
      · simp only; rw [upd_ne _ _ (Ne.symm hl)]; exact h3
      · intro _; simp only; rw [upd_ne _ _ (Ne.symm hl)]; exact h4 (by simp)
  simp only [forget]
  by_cases ho : (s.own p).erase x = []
  · rw [if_pos ho, if_pos h.b.st]
    have hb : B0 c (fun q => q = p) { s with queue := rest, own := upd s.own p ((s.own p).erase x), live := s.live.erase x, log := .removed x :: s.log, deact := s.deact.erase p } := {
      com := hcm.of rfl rfl rfl rfl rfl rfl (fun _ _ => rfl)
      rs := h.b.rs
      st := h.b.st
      ra := h.b.ra
      uns := fun q hq y hy => h.b.uns q hq y (mem_erase_upd hy)
      deact := fun q hq => by
        simp only
        rw [List.Nodup.mem_erase_iff h.b.dN]
        by_cases e : q = p
        · subst e
          simp only [upd_self]
          simp [ho]
        · rw [upd_ne _ _ e, h.b.deact q hq]
          simp [e]
      dN := h.b.dN.erase p
      dL := by simp only; rw [List.mem_erase_of_ne (Ne.symm hl)]; exact h.b.dL
      act := fun q hq he ha => by
        simp only
        rw [upd_ne _ _ he]
        exact h.b.act q hq (fun h => h) ha
      aL := h.b.aL }
    have hll : L1 c { s with queue := rest, own := upd s.own p ((s.own p).erase x), live := s.live.erase x, log := .removed x :: s.log, deact := s.deact.erase p } ∨
        L2 c { s with queue := rest, own := upd s.own p ((s.own p).erase x), live := s.live.erase x, log := .removed x :: s.log, deact := s.deact.erase p } := by
      rcases h.l with ⟨h1, _⟩ | ⟨h1, _⟩
      · exact .inl (hL1 h1 _)
      · exact .inr (hL2 h1 _)
    obtain ⟨s3, g1, g2, g3, g4, g5, g6⟩ := continue_B env hb hnull hll
    rw [g1]
    simp only
    refine ⟨_, rfl, ⟨⟨g2.com.of rfl rfl rfl rfl rfl rfl (fun _ _ => rfl), g2.rs, g2.st, g2.ra, g2.uns, g2.deact, g2.dN, g2.dL, ?_, ?_⟩, g3, g6⟩, g4⟩
    · intro q hq _ ha
      simp only [upd] at ha
      by_cases e : q = p
      · simp [e] at ha
      · exact g2.act q hq e (by simpa [e] using ha)
    · simp only; rw [upd_ne _ _ (Ne.symm hl)]; exact g2.aL
  · rw [if_neg ho]
    refine ⟨_, rfl, ⟨{
      com := hcm
      rs := h.b.rs
      st := h.b.st
      ra := h.b.ra
      uns := fun q hq y hy => h.b.uns q hq y (mem_erase_upd hy)
      deact := fun q hq => by
        simp only
        rw [h.b.deact q hq]
        by_cases e : q = p
        · subst e
          simp only [upd_self]
          exact ⟨fun _ => ho, fun _ => List.ne_nil_of_mem hxo⟩
        · rw [upd_ne _ _ e]
      dN := h.b.dN
      dL := h.b.dL
      act := fun q hq he ha => by
        simp only
        by_cases e : q = p
        · subst e; rw [upd_self]; exact ho
        · rw [upd_ne _ _ e]
          exact h.b.act q hq he ha
      aL := h.b.aL }, h.anon, ?_⟩, rfl⟩
    rcases h.l with ⟨h1, h2⟩ | ⟨h1, h2⟩
    · exact .inl ⟨hL1 h1 _, h2⟩
    · exact .inr ⟨hL2 h1 _, h2⟩

/-- an anonymous subscription leaves -/
theorem forgetAnon_B {c : Cfg} {s : State} (h : PB c s) {x : Sub} {rest : List Sub} (hq : s.queue = x :: rest) (hp : x.owner = none) :
    ∃ s', forgetAnon c x { s with queue := rest } = .ok s' ∧ PB c s' ∧ s'.live = s.live.erase x := by
  obtain ⟨hxl, hxu⟩ := (h.b.com.q.2 x).1 (by rw [hq]; simp)
  have hxp := (h.b.com.loN x hp).1 hxl
  have hl1 : L1 c s := by
    rcases h.l with ⟨h1, _⟩ | ⟨⟨q1, _, _, _, _, h1⟩, _⟩
    · exact h1
    · rw [h1] at hxp; simp at hxp
  have hb : B0 c (fun _ => False) { s with queue := rest, points := s.points.erase x, live := s.live.erase x, log := .removed x :: s.log } :=
    ⟨h.b.com.removeAnon hp hq _, h.b.rs, h.b.st, h.b.ra, h.b.uns, h.b.deact, h.b.dN, h.b.dL, h.b.act, h.b.aL⟩
  have hl1' : L1 c { s with queue := rest, points := s.points.erase x, live := s.live.erase x, log := .removed x :: s.log } := hl1
  have han : ∀ y ∈ s.points.erase x, y.owner = none ∧ y ∈ s.uns := fun y hy => h.anon y (List.mem_of_mem_erase hy)
  simp only [forgetAnon]
  rw [if_pos ⟨hxp, h.b.aL⟩]
  by_cases he : s.points.erase x = []
  · rw [if_pos he]
    simp only [baseDeactivate]
    have hown : s.own c.life ≠ [] := by rw [hl1.1, core_life]; simp
    rw [if_pos h.b.aL, if_neg hown, if_neg (by rw [hl1.2.2]; simp)]
    have hlive : ∀ y ∈ (s.own c.life).reverse, y ∈ s.live.erase x := by
      intro y hy
      have hy : y ∈ s.own c.life := by simpa using hy
      exact (hb.com.loS y _ (hb.com.ownOf _ y hy)).2 hy
    have g := frame_markAll (s.own c.life).reverse { s with queue := rest, points := s.points.erase x, live := s.live.erase x, log := .removed x :: s.log }
    have hb1 := hb.markAll (s.own c.life).reverse hlive
    have gq := markAll_queue (s.own c.life).reverse { s with queue := rest, points := s.points.erase x, live := s.live.erase x, log := .removed x :: s.log }
      (by simp only [List.Nodup, List.pairwise_reverse]; exact (hb.com.ownN c.life).imp (fun h => Ne.symm h))
      (fun y hy => hl1.2.1 y (by rw [← hl1.1]; simpa using hy))
    generalize markAll (s.own c.life).reverse { s with queue := rest, points := s.points.erase x, live := s.live.erase x, log := .removed x :: s.log } = s2 at *
    refine ⟨s2, rfl, ⟨hb1, ?_, .inr ⟨⟨rest, ?_, ?_, ?_, ?_, ?_⟩, ?_⟩⟩, g.live⟩
    · intro y hy; rw [g.points] at hy; simp only at hy; rw [he] at hy; simp at hy
    · rw [gq, g.own]
    · rw [g.own]; exact hown
    · rw [g.own]; simp only; rw [hl1.1]; exact List.prefix_refl _
    · intro _; rw [g.own]; exact hl1.1
    · rw [g.points]; exact he
    · intro hn; rw [g.lifeNull] at hn; simp only at hn; rw [hl1.2.2] at hn; simp at hn
  · rw [if_neg he]
    exact ⟨_, rfl, ⟨hb, han, .inl ⟨hl1', .inl he⟩⟩, rfl⟩

theorem erase_last {l : List Sub} {x : Sub} (h : (l ++ [x]).Nodup) : (l ++ [x]).erase x = l := by
  have : x ∉ l := by
    intro hx
    rw [List.nodup_append] at h
    exact h.2.2 x hx x (by simp) rfl
  rw [List.erase_append_right _ this]
  simp

/-- the lifetime plugin loses one of its own -/
theorem forget_life {c : Cfg} {s : State} (env : Env) (h : PB c s) {x : Sub} {rest : List Sub} (hq : s.queue = x :: rest)
    (hp : x.owner = some c.life) :
    ∃ s', forget c env c.life x { s with queue := rest } = .ok s' ∧ (PB c s' ∨ (PD s' ∧ s'.react c.shut = false)) ∧ s'.live = s.live.erase x := by
  obtain ⟨hxl, hxu⟩ := (h.b.com.q.2 x).1 (by rw [hq]; simp)
  have hxo := (h.b.com.loS x _ hp).1 hxl
  obtain ⟨⟨q1, h1, h2, h3, h4, h5⟩, h6⟩ : L2 c s ∧ (s.lifeNull = true → s.deact = [c.life]) := by
    rcases h.l with ⟨h1, _⟩ | h1
    · exact absurd hxu (h1.2.1 x (h1.1 ▸ hxo))
    · exact h1
  -- all the others are gone
  have hq1 : q1 = [] := by
    cases q1 with
    | nil => rfl
    | cons y q1 =>
      exfalso
      have hN := h.b.com.q.1
      rw [h1, List.cons_append, List.nodup_cons] at hN
      rw [hq, List.cons_append, List.cons.injEq] at h1
      refine hN.1 ?_
      rw [← h1.1]
      simp [hxo]
  subst hq1
  rw [hq, List.nil_append] at h1
  have hsplit : s.own c.life = rest.reverse ++ [x] := by
    have := congrArg List.reverse h1
    simpa using this.symm
  have hN := h.b.com.ownN c.life
  have her : (s.own c.life).erase x = rest.reverse := by
    rw [hsplit] at hN ⊢
    exact erase_last hN
  have hcm := h.b.com.remove hp hq (.removed x :: s.log)
  have hothers : ∀ p, p ≠ c.life → s.own p = [] := by
    intro p hpl
    apply List.eq_nil_iff_forall_not_mem.2
    intro y hy
    have ho := h.b.com.ownOf p y hy
    have : y ∈ s.queue := (h.b.com.q.2 y).2 ⟨(h.b.com.loS y p ho).2 hy, h.b.uns p hpl y hy⟩
    rw [hq, h1] at this
    have := h.b.com.ownOf _ y (by simpa using this)
    rw [ho] at this
    exact hpl (Option.some.inj this)
  have hdeact : ∀ p ∈ s.deact, p = c.life := by
    intro p hp
    by_cases e : p = c.life
    · exact e
    · exact absurd (hothers p e) ((h.b.deact p e).1 hp)
  simp only [forget]
  rw [her]
  by_cases hr : rest = []
  · subst hr
    simp only [List.reverse_nil]
    rw [if_pos trivial, if_pos h.b.st]
    have hd : s.deact.erase c.life = [] := by
      apply List.eq_nil_iff_forall_not_mem.2
      intro p hp
      rw [List.Nodup.mem_erase_iff h.b.dN] at hp
      exact hp.1 (hdeact p hp.2)
    have hpass := (pass_life c env c.n { s with queue := [], own := upd s.own c.life [], live := s.live.erase x, log := .removed x :: s.log, deact := s.deact.erase c.life }
      (life_lt c) (fun i h3 h4 => by
        by_cases e : i = c.shut
        · rw [e]; exact h.b.rs
        · exact h.b.ra i (by simp only [Cfg.shut] at e ⊢; omega) h4) h.b.com.rb h.b.com.rl).1 ⟨h5, upd_self _ _ _⟩
    simp only [shutdownContinue]
    rw [if_pos h.b.st, show c.order = (List.range c.n).reverse from rfl, hpass]
    simp only [finish]
    rw [if_pos hd]
    refine ⟨_, rfl, .inr ⟨⟨rfl, ?_, rfl⟩, ?_⟩, rfl⟩
    · simp only
      apply List.eq_nil_iff_forall_not_mem.2
      intro y hy
      rw [List.Nodup.mem_erase_iff h.b.com.liveN] at hy
      cases ho : y.owner with
      | none =>
        have := (h.b.com.loN y ho).1 hy.2
        rw [h5] at this; simp at this
      | some p =>
        have h8 := (h.b.com.loS y p ho).1 hy.2
        by_cases e : p = c.life
        · subst e
          rw [hsplit] at h8
          simp at h8
          exact hy.1 h8
        · rw [hothers p e] at h8; simp at h8
    · simp only
      rw [upd_ne _ _ (shut_ne_life c)]; exact h.b.rs
  · rw [if_neg (by simpa using hr)]
    rw [her] at hcm
    refine ⟨_, rfl, .inl ⟨{
      com := hcm
      rs := h.b.rs
      st := h.b.st
      ra := h.b.ra
      uns := fun q hq y hy => by simp only at hy; rw [upd_ne _ _ hq] at hy; exact h.b.uns q hq y hy
      deact := fun q hq => by simp only; rw [upd_ne _ _ hq]; exact h.b.deact q hq
      dN := h.b.dN
      dL := h.b.dL
      act := fun q hq he ha => by simp only; rw [upd_ne _ _ hq]; exact h.b.act q hq he ha
      aL := h.b.aL }, h.anon, .inr ⟨⟨[], ?_, ?_, ?_, ?_, h5⟩, h6⟩⟩, rfl⟩
    · simp only [upd_self, List.reverse_reverse, List.nil_append]
    · simp only [upd_self]; simpa using hr
    · simp only [upd_self]
      refine List.IsPrefix.trans ?_ h3
      rw [hsplit]
      exact List.prefix_append _ _
    · intro h; exact absurd rfl h

theorem prefix_head {l m : List Sub} {x : Sub} (h : l <+: x :: m) (hl : l ≠ []) : x ∈ l := by
  cases l with
  | nil => exact absurd rfl hl
  | cons y l =>
    obtain ⟨r, hr⟩ := h
    simp only [List.cons_append, List.cons.injEq] at hr
    rw [hr.1]; simp

theorem confirm_B {c : Cfg} {s : State} (env : Env) (h : PB c s) :
    ∃ s', confirm c env s = .ok s' ∧ (PB c s' ∨ (PD s' ∧ s'.react c.shut = false)) ∧ ∃ x ∈ s.live, s'.live = s.live.erase x := by
  cases hq : s.queue with
  | nil =>
    -- something is left to be removed
    exfalso
    have hq' : ∀ y, y ∈ s.live → y ∉ s.uns := fun y h1 h2 => by
      have := (h.b.com.q.2 y).2 ⟨h1, h2⟩
      rw [hq] at this; simp at this
    rcases h.l with ⟨_, h1⟩ | ⟨⟨q1, h1, h2, _⟩, _⟩
    · rcases h1 with h1 | h1
      · obtain ⟨y, hy⟩ := List.exists_mem_of_ne_nil _ h1
        exact hq' y ((h.b.com.loN y (h.anon y hy).1).2 hy) (h.anon y hy).2
      · have : ∃ p ∈ s.deact, p ≠ c.life := by
          apply Classical.byContradiction
          intro hx
          have hall : ∀ p ∈ s.deact, p = c.life := fun p hp => Decidable.byContradiction (fun e => hx ⟨p, hp, e⟩)
          apply h1
          have h2 := h.b.dN
          have h3 := h.b.dL
          cases hd : s.deact with
          | nil => rw [hd] at h3; simp at h3
          | cons a l =>
            rw [hd] at hall h2
            have ha := hall a (by simp)
            cases l with
            | nil => rw [ha]
            | cons b l =>
              have hb := hall b (by simp)
              rw [ha, hb] at h2
              simp at h2
        obtain ⟨p, hp, hpl⟩ := this
        obtain ⟨y, hy⟩ := List.exists_mem_of_ne_nil _ ((h.b.deact p hpl).1 hp)
        exact hq' y ((h.b.com.loS y p (h.b.com.ownOf p y hy)).2 hy) (h.b.uns p hpl y hy)
    · rw [hq] at h1
      have := congrArg List.length h1
      simp only [List.length_nil, List.length_append, List.length_reverse] at this
      exact h2 (List.eq_nil_of_length_eq_zero (by omega))
  | cons x rest =>
    obtain ⟨hxl, hxu⟩ := (h.b.com.q.2 x).1 (by rw [hq]; simp)
    have hI : hInt c ∈ s.live := by
      refine (h.b.com.loS _ c.life rfl).2 ?_
      rcases h.l with ⟨h1, _⟩ | ⟨⟨q1, _, h2, h3, _⟩, _⟩
      · rw [h1.1]; exact hInt_core c
      · rw [core_life] at h3; exact prefix_head h3 h2
    simp only [confirm, hq]
    by_cases he : x.ext = true
    · rw [if_pos he]
      have ho := h.b.com.extT x hxl he
      have hsl : c.starter ≠ c.life := by have := shut_lt_starter c; simp only [Cfg.shut] at this; omega
      have hE : hExt c ∈ s.live := by
        refine (h.b.com.loS _ c.life rfl).2 ?_
        rcases h.l with ⟨h1, _⟩ | ⟨⟨q1, h1, h2, h3, h4, _⟩, _⟩
        · rw [h1.1]; exact hExt_core c
        · rw [h4 ?_]
          · exact hExt_core c
          · rintro rfl
            rw [hq, List.nil_append] at h1
            have : x ∈ (s.own c.life).reverse := by rw [← h1]; simp
            have := h.b.com.ownOf _ x (by simpa using this)
            rw [ho] at this
            exact hsl (Option.some.inj this)
      rw [if_pos hE, if_pos ((h.b.com.loS x _ ho).1 hxl)]
      obtain ⟨s', g1, g2, g3⟩ := forget_B env h hq ho hsl
      exact ⟨s', g1, .inl g2, x, hxl, g3⟩
    · rw [if_neg he, if_pos hI]
      cases ho : x.owner with
      | none =>
        simp only
        obtain ⟨s', g1, g2, g3⟩ := forgetAnon_B h hq ho
        exact ⟨s', g1, .inl g2, x, hxl, g3⟩
      | some p =>
        simp only
        rw [if_pos ((h.b.com.loS x _ ho).1 hxl)]
        by_cases hl : p = c.life
        · subst hl
          obtain ⟨s', g1, g2, g3⟩ := forget_life env h hq ho
          exact ⟨s', g1, g2, x, hxl, g3⟩
        · obtain ⟨s', g1, g2, g3⟩ := forget_B env h hq ho hl
          exact ⟨s', g1, .inl g2, x, hxl, g3⟩

end Verif.Lifetime
