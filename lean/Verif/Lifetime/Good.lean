import Verif.Lifetime.Safe

/-!
# The removal of the subscriptions comes to its end
-/

namespace Verif.Lifetime
open Verif

structure Com (c : Cfg) (s : State) : Prop where
  liveN : s.live.Nodup
  loN : ∀ x, x.owner = none → (x ∈ s.live ↔ x ∈ s.points)
  loS : ∀ x p, x.owner = some p → (x ∈ s.live ↔ x ∈ s.own p)
  ownOf : ∀ p, ∀ x ∈ s.own p, x.owner = some p
  ownN : ∀ p, (s.own p).Nodup
  userOf : ∀ p, ∀ x ∈ s.own p, x.user = true → p = c.starter
  pointsN : s.points.Nodup
  fresh : ∀ x, x.user = true → x ∈ s.live ∨ x ∈ s.points ∨ x ∈ s.uns → x.uid < s.next
  extT : ∀ x ∈ s.live, x.ext = true → x.owner = some c.starter
  q : QOk s
  rb : ∀ i, i < c.life → s.react i = false
  rl : s.react c.life = true

/-- before the plugins are deactivated -/
structure PA (c : Cfg) (s : State) : Prop where
  com : Com c s
  rs : s.react c.shut = true
  st : s.st ≠ .shutDown
  deact : s.deact = []
  null : s.lifeNull = false
  active : ∀ q, s.active q = true ↔ q < c.n
  core : ∀ p, p < c.n → ∀ x ∈ core c p, x ∈ s.own p ∧ x ∉ s.uns
  ownLife : s.own c.life = Lifetime.core c c.life
  ownB : ∀ p, c.n ≤ p → s.own p = []
  ownCore : ∀ p, ∀ x ∈ s.own p, x.user = false → x ∈ Lifetime.core c p
  pts : ∀ x ∈ s.points, x.user = true → x ∈ s.live ∨ x ∈ s.uns
  hp : hInt c ∈ s.points

/-- afterwards -/
structure B0 (c : Cfg) (e : Nat → Prop) (s : State) : Prop where
  com : Com c s
  rs : s.react c.shut = false
  st : s.st = .shuttingDown
  ra : ∀ i, c.shut < i → i < c.n → s.react i = false
  uns : ∀ p, p ≠ c.life → ∀ x ∈ s.own p, x ∈ s.uns
  deact : ∀ p, p ≠ c.life → (p ∈ s.deact ↔ s.own p ≠ [])
  dN : s.deact.Nodup
  dL : c.life ∈ s.deact
  act : ∀ p, p ≠ c.life → ¬ e p → s.active p = true → s.own p ≠ []
  aL : s.active c.life = true

/-- the lifetime plugin waits -/
def L1 (c : Cfg) (s : State) : Prop :=
  s.own c.life = core c c.life ∧ (∀ x ∈ core c c.life, x ∉ s.uns) ∧ s.lifeNull = false

/-- the lifetime plugin removes its own subscriptions, after the others -/
def L2 (c : Cfg) (s : State) : Prop :=
  ∃ q1, s.queue = q1 ++ (s.own c.life).reverse ∧ s.own c.life ≠ [] ∧ s.own c.life <+: core c c.life ∧ (q1 ≠ [] → s.own c.life = core c c.life) ∧ s.points = []

structure PB (c : Cfg) (s : State) : Prop where
  b : B0 c (fun _ => False) s
  anon : ∀ x ∈ s.points, x.owner = none ∧ x ∈ s.uns
  l : (L1 c s ∧ (s.points ≠ [] ∨ s.deact ≠ [c.life])) ∨ (L2 c s ∧ (s.lifeNull = true → s.deact = [c.life]))

/-- the end -/
structure PD (s : State) : Prop where
  st : s.st = .shutDown
  live : s.live = []
  queue : s.queue = []

def Good (c : Cfg) (s : State) : Prop := PA c s ∨ PB c s ∨ (PD s ∧ s.react c.shut = false)

theorem core_of {c : Cfg} {p : Nat} {x : Sub} (h : x ∈ core c p) : x.owner = some p ∧ x.user = false ∧ x.ext = false := by
  simp only [core, List.mem_map] at h
  obtain ⟨k, _, rfl⟩ := h
  exact ⟨rfl, rfl, rfl⟩

theorem core_life (c : Cfg) : core c c.life = [hInt c, hExt c, ⟨some c.life, false, 2, false⟩] := by
  simp only [core, c.hlife, hInt, hExt]; rfl

theorem core_nodup (c : Cfg) (p : Nat) : (core c p).Nodup := by
  simp only [core, List.Nodup, List.pairwise_map]
  exact List.nodup_range.imp (fun h e => h (by simpa using e))

theorem deact_one {c : Cfg} {e : Nat → Prop} {s : State} (h : B0 c e s) : s.deact.length = 1 ↔ s.deact = [c.life] := by
  constructor
  · intro h1
    match hd : s.deact, h1 with
    | [x], _ =>
      have := h.dL
      rw [hd, List.mem_singleton] at this
      rw [this]
  · intro h1; rw [h1]; rfl

/-! ## one plugin asked after the others -/

theorem pass_low (c : Cfg) (env : Env) : ∀ (k : Nat) (s : State), (∀ i, i < k → s.react i = false) → pass c env (List.range k).reverse s = .ok (s, true) := by
  intro k
  induction k with
  | zero => intro s _; rfl
  | succ k ih =>
    intro s h
    rw [range_succ_reverse]
    simp only [pass]
    rw [if_neg (by simp [h k (by omega)])]
    exact ih s (fun i hi => h i (by omega))

/-- only the lifetime plugin is left -/
theorem pass_life (c : Cfg) (env : Env) : ∀ (k : Nat) (s : State), c.life < k → (∀ i, c.life < i → i < k → s.react i = false) →
    (∀ i, i < c.life → s.react i = false) → s.react c.life = true →
    (s.points = [] ∧ s.own c.life = [] → pass c env (List.range k).reverse s = .ok ({ s with react := upd s.react c.life false }, true)) ∧
    (¬ (s.points = [] ∧ s.own c.life = []) → ∀ s', lifeUnsub c s = .ok s' → pass c env (List.range k).reverse s = .ok (s', false)) := by
  intro k
  induction k with
  | zero => intro s h; omega
  | succ k ih =>
    intro s hk h1 h2 h3
    rw [range_succ_reverse]
    simp only [pass]
    by_cases hl : k = c.life
    · subst hl
      rw [if_pos h3]
      simp only [vote, if_true]
      constructor
      · intro hc
        rw [if_pos hc]
        simp only
        exact pass_low c env _ _ (fun i hi => by simp only; rw [upd_ne _ _ (by omega)]; exact h2 i hi)
      · intro hc s' he
        rw [if_neg hc, he]
    · rw [if_neg (by simp [h1 k (by omega) (by omega)])]
      exact ih s (by omega) (fun i h4 h5 => h1 i h4 (by omega)) h2 h3

theorem Com.of {c : Cfg} {s s' : State} (h : Com c s) (h1 : s'.live = s.live) (h2 : s'.next = s.next) (h3 : s'.points = s.points)
    (h4 : s'.own = s.own) (h5 : s'.queue = s.queue) (h6 : s'.uns = s.uns) (h7 : ∀ i, i ≤ c.life → s'.react i = s.react i) : Com c s' where
  liveN := by rw [h1]; exact h.liveN
  loN := by rw [h1, h3]; exact h.loN
  loS := by rw [h1, h4]; exact h.loS
  ownOf := by rw [h4]; exact h.ownOf
  ownN := by rw [h4]; exact h.ownN
  userOf := by rw [h4]; exact h.userOf
  pointsN := by rw [h3]; exact h.pointsN
  fresh := by rw [h1, h2, h3, h6]; exact h.fresh
  extT := by rw [h1]; exact h.extT
  q := h.q.of h5 h1 h6
  rb i hi := (h7 i (by omega)).trans (h.rb i hi)
  rl := (h7 _ (Nat.le_refl _)).trans h.rl

theorem Com.markAll {c : Cfg} {s : State} (h : Com c s) (l : List Sub) (hl : ∀ x ∈ l, x ∈ s.live) : Com c (markAll l s) := by
  have f := frame_markAll l s
  have hu := fun x => mem_uns_markAll (y := x) l s
  have hq := QOk.markAll l s h.q hl
  generalize Lifetime.markAll l s = s1 at *
  exact {
    liveN := by rw [f.live]; exact h.liveN
    loN := by rw [f.live, f.points]; exact h.loN
    loS := by rw [f.live, f.own]; exact h.loS
    ownOf := by rw [f.own]; exact h.ownOf
    ownN := by rw [f.own]; exact h.ownN
    userOf := by rw [f.own]; exact h.userOf
    pointsN := by rw [f.points]; exact h.pointsN
    fresh := fun x hx h1 => by
      rw [f.live, f.points, hu] at h1
      rw [f.next]
      rcases h1 with h1 | h1 | h1 | h1
      · exact h.fresh x hx (.inl h1)
      · exact h.fresh x hx (.inr (.inl h1))
      · exact h.fresh x hx (.inl (hl x h1))
      · exact h.fresh x hx (.inr (.inr h1))
    extT := by rw [f.live]; exact h.extT
    q := hq
    rb := by rw [f.react]; exact h.rb
    rl := by rw [f.react]; exact h.rl }

/-- the plugins' entries leave the list of the lifetime plugin -/
theorem Com.dropPoints {c : Cfg} {s : State} (h : Com c s) : Com c { s with points := s.points.filter Lifetime.anon } where
  liveN := h.liveN
  loN x hx := by
    rw [h.loN x hx]
    simp only [List.mem_filter]
    constructor
    · intro h1; exact ⟨h1, by simp [Lifetime.anon, hx]⟩
    · exact fun h1 => h1.1
  loS := h.loS
  ownOf := h.ownOf
  ownN := h.ownN
  userOf := h.userOf
  pointsN := h.pointsN.sublist List.filter_sublist
  fresh x hx h1 := by
    refine h.fresh x hx ?_
    rcases h1 with h1 | h1 | h1
    · exact .inl h1
    · exact .inr (.inl (List.mem_filter.1 h1).1)
    · exact .inr (.inr h1)
  extT := h.extT
  q := h.q.of rfl rfl rfl
  rb := h.rb
  rl := h.rl

theorem B0.markAll {c : Cfg} {e : Nat → Prop} {s : State} (h : B0 c e s) (l : List Sub) (hl : ∀ x ∈ l, x ∈ s.live) : B0 c e (Lifetime.markAll l s) := by
  have f := frame_markAll l s
  have hu := fun x => mem_uns_markAll (y := x) l s
  have hc := h.com.markAll l hl
  generalize Lifetime.markAll l s = s1 at *
  exact {
    com := hc
    rs := by rw [f.react]; exact h.rs
    st := by rw [f.st]; exact h.st
    ra := by rw [f.react]; exact h.ra
    uns := fun p hp x hx => by rw [f.own] at hx; rw [hu]; exact .inr (h.uns p hp x hx)
    deact := by rw [f.deact, f.own]; exact h.deact
    dN := by rw [f.deact]; exact h.dN
    dL := by rw [f.deact]; exact h.dL
    act := by rw [f.own, f.active]; exact h.act
    aL := by rw [f.active]; exact h.aL }

theorem B0.dropPoints {c : Cfg} {e : Nat → Prop} {s : State} (h : B0 c e s) : B0 c e { s with points := s.points.filter Lifetime.anon } :=
  ⟨h.com.dropPoints, h.rs, h.st, h.ra, h.uns, h.deact, h.dN, h.dL, h.act, h.aL⟩

/-- the lifetime plugin is asked -/
theorem ask_life {c : Cfg} {e : Nat → Prop} {s : State} (h : B0 c e s) (hn : s.lifeNull = false) (hl : L1 c s ∨ L2 c s) :
    ∃ s', lifeUnsub c s = .ok s' ∧ B0 c e s' ∧ (∀ x ∈ s'.points, x.owner = none ∧ x ∈ s'.uns) ∧ s'.live = s.live ∧ s'.own = s.own ∧
      ((L1 c s' ∧ (s'.points ≠ [] ∨ s'.deact ≠ [c.life])) ∨ (L2 c s' ∧ (s'.lifeNull = true → s'.deact = [c.life]))) := by
  have hpl : ∀ x ∈ (s.points.filter anon).reverse, x ∈ s.live := by
    intro x hx
    simp only [List.mem_reverse, List.mem_filter, anon, Option.isNone_iff_eq_none] at hx
    exact (h.com.loN x hx.2).2 hx.1
  have f := frame_markAll (s.points.filter anon).reverse s
  have hu := fun x => mem_uns_markAll (y := x) (s.points.filter anon).reverse s
  have hb0 := (h.markAll _ hpl).dropPoints
  have hid : s.points = [] → markAll (s.points.filter anon).reverse s = s := by intro e; rw [e]; rfl
  simp only [lifeUnsub]
  rw [if_pos h.aL]
  generalize markAll (s.points.filter anon).reverse s = s1 at *
  rw [f.points] at hb0
  have hanon : ∀ x ∈ s.points.filter anon, x.owner = none ∧ x ∈ s1.uns := by
    intro x hx
    refine ⟨?_, (hu x).2 (.inl (by simpa using hx))⟩
    simpa [anon] using (List.mem_filter.1 hx).2
  have hL1 : L1 c s → L1 c { s1 with points := s.points.filter anon } := by
    rintro ⟨h1, h2, h3⟩
    refine ⟨f.own ▸ h1, fun x hx hx2 => ?_, f.lifeNull.trans h3⟩
    rcases (hu x).1 hx2 with h4 | h4
    · simp only [List.mem_reverse, List.mem_filter, anon, (core_of hx).1] at h4
      simp at h4
    · exact h2 x hx h4
  have hone := deact_one hb0
  simp only at hone
  by_cases hc : s.points.filter anon = [] ∧ s1.deact.length = 1
  · rw [if_pos hc]
    have hd : s1.deact = [c.life] := hone.1 hc.2
    simp only [baseDeactivate]
    rw [if_pos (by rw [f.active]; exact h.aL)]
    have hown : s1.own c.life ≠ [] := by
      rw [f.own]
      rcases hl with h1 | ⟨q1, _, h1, _⟩
      · rw [h1.1, core_life]; simp
      · exact h1
    rw [if_neg hown, if_neg (by rw [f.lifeNull, hn]; simp)]
    have hlive : ∀ x ∈ (s1.own c.life).reverse, x ∈ s1.live := by
      intro x hx
      have hx : x ∈ s1.own c.life := by simpa using hx
      exact (hb0.com.loS x _ (hb0.com.ownOf _ x hx)).2 hx
    have g := frame_markAll (s1.own c.life).reverse { s1 with points := s.points.filter anon }
    have hb1 := hb0.markAll (s1.own c.life).reverse hlive
    have gu := fun x => mem_uns_markAll (y := x) (s1.own c.life).reverse { s1 with points := s.points.filter anon }
    have gq : L1 c s → (markAll (s1.own c.life).reverse { s1 with points := s.points.filter anon }).queue = s1.queue ++ (s1.own c.life).reverse := by
      intro h1
      have h2 := hL1 h1
      refine markAll_queue _ _ (by simp only [List.Nodup, List.pairwise_reverse]; exact (hb0.com.ownN c.life).imp (fun h => Ne.symm h)) (fun x hx => ?_)
      refine h2.2.1 x ?_
      have := h2.1
      simp only at this
      rw [← this]
      simpa using hx
    have gi : L2 c s → markAll (s1.own c.life).reverse { s1 with points := s.points.filter anon } = { s1 with points := s.points.filter anon } := by
      rintro ⟨q1, h1, _⟩
      refine markAll_idle _ _ (fun x hx => ?_)
      rw [f.own] at hx
      have : x ∈ s.uns := ((h.com.q.2 x).1 (by rw [h1]; simp only [List.mem_append]; exact .inr hx)).2
      exact (hu x).2 (.inr this)
    generalize markAll (s1.own c.life).reverse { s1 with points := s.points.filter anon } = s2 at *
    simp only
    rw [if_pos (by rw [g.active]; exact (congrFun f.active _).trans h.aL)]
    refine ⟨{ s2 with lifeNull := true }, rfl,
      ⟨hb1.com.of rfl rfl rfl rfl rfl rfl (fun _ _ => rfl), hb1.rs, hb1.st, hb1.ra, hb1.uns, hb1.deact, hb1.dN, hb1.dL, hb1.act, hb1.aL⟩, ?_,
      g.live.trans f.live, g.own.trans f.own, .inr ⟨?_, fun _ => g.deact.trans hd⟩⟩
    · intro x hx
      simp only at hx
      rw [g.points] at hx
      rw [show s.points.filter anon = [] from hc.1] at hx
      simp at hx
    · rcases hl with h1 | h2
      · refine ⟨s1.queue, ?_, ?_, ?_, ?_, ?_⟩
        · simp only; rw [gq h1, g.own]
        · simp only; rw [g.own]; exact hown
        · simp only; rw [g.own, show s1.own c.life = core c c.life from (congrFun f.own _).trans h1.1]; exact List.prefix_refl _
        · intro _; simp only; rw [g.own]; exact (congrFun f.own _).trans h1.1
        · simp only; rw [g.points]; exact hc.1
      · obtain ⟨q1, k1, k2, k3, k4, k5⟩ := h2
        have hs1 := hid k5
        subst hs1
        have hs2 := gi ⟨q1, k1, k2, k3, k4, k5⟩
        subst hs2
        exact ⟨q1, k1, k2, k3, k4, by simp only; exact hc.1⟩
  · rw [if_neg hc]
    refine ⟨_, rfl, hb0, hanon, f.live, f.own, ?_⟩
    rcases hl with h1 | ⟨q1, k1, k2, k3, k4, k5⟩
    · refine .inl ⟨hL1 h1, ?_⟩
      by_cases hx : s.points.filter anon = []
      · exact .inr (fun h2 => hc ⟨hx, hone.2 h2⟩)
      · exact .inl hx
    · have hs1 := hid k5
      subst hs1
      exact .inr ⟨⟨q1, k1, k2, k3, k4, by simp only [k5]; rfl⟩, fun h1 => by simp only at h1; rw [hn] at h1; simp at h1⟩

end Verif.Lifetime
