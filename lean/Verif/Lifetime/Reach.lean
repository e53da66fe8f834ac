import Verif.Lifetime.Log

/-!
# Whole runs
-/

namespace Verif.Lifetime
open Verif

/-! ## the beginning -/

theorem mem_allCore {c : Cfg} {x : Sub} : x ∈ (List.range c.n).flatMap (core c) ↔ ∃ p, p < c.n ∧ x ∈ core c p := by
  simp [List.mem_flatMap, List.mem_range]

theorem nodup_allCore (c : Cfg) : ∀ n, ((List.range n).flatMap (core c)).Nodup := by
  intro n
  induction n with
  | zero => simp
  | succ n ih =>
    rw [List.range_succ, List.flatMap_append]
    refine List.nodup_append.2 ⟨ih, by simpa using core_nodup c n, ?_⟩
    intro a ha b hb hab
    subst hab
    obtain ⟨p, hp, h1⟩ := List.mem_flatMap.1 ha
    have hb : a ∈ core c n := by simpa using hb
    have h2 := (core_of h1).1
    rw [(core_of hb).1] at h2
    have := Option.some.inj h2
    rw [List.mem_range] at hp
    omega

theorem own_init {c : Cfg} {p : Nat} {x : Sub} : x ∈ (State.init c).own p ↔ p < c.n ∧ x ∈ core c p := by
  simp only [State.init]
  by_cases h : p < c.n
  · simp [h]
  · simp [h]

theorem init_safe (c : Cfg) : SafeAll c (State.init c) where
  safe := {
    liveN := nodup_allCore c c.n
    fresh := fun x hx hu => by
      obtain ⟨p, _, h⟩ := mem_allCore.1 hx
      rw [(core_of h).2.1] at hu; simp at hu
    own := fun x hx => by
      obtain ⟨p, hp, h⟩ := mem_allCore.1 hx
      exact .inr ⟨p, (core_of h).1, own_init.2 ⟨hp, h⟩⟩
    ownOf := fun p x hx => (core_of (own_init.1 hx).2).1
    bound := fun q h => by simpa [State.init] using h
    A := fun _ q hq => by
      obtain ⟨x, hx⟩ := List.exists_mem_of_ne_nil _ hq
      simpa [State.init] using (own_init.1 hx).1
    B := fun h => by
      simp only [State.init, Cfg.shut, c.hvshut] at h
      simp at h
      exact absurd h (Nat.not_le.2 (shut_lt c))
    rb := fun i hi => by simp [State.init, c.hbefore i hi] }
  rl _ := by simp [State.init, c.hvlife, life_lt c]
  dn h := by simp [State.init] at h

theorem count_map_made (l : List Sub) (x : Sub) : (l.map Ev.made).count (.made x) = l.count x := by
  induction l with
  | nil => rfl
  | cons y l ih =>
    simp only [List.map_cons, List.count_cons, ih]
    by_cases e : y = x
    · simp [e]
    · simp [e]

theorem init_inv (c : Cfg) : Inv c (State.init c) where
  all := init_safe c
  k := {
    ol := fun p x hx => mem_allCore.2 ⟨p, own_init.1 hx⟩
    oN := fun p => by
      simp only [State.init]
      by_cases h : p < c.n
      · simp only [if_pos h]; exact core_nodup c p
      · simp [if_neg h]
    pl := fun x hx _ => hx
    cnt := fun x => by
      simp only [State.init]
      rw [count_map_made, List.count_eq_zero (a := Ev.removed x) |>.2 (by simp)]
      simp
    m1 := fun x => by
      simp only [State.init]
      rw [count_map_made]
      exact List.nodup_iff_count.1 (nodup_allCore c c.n) x
    fr := fun x hx hu => by
      simp only [State.init, List.mem_map, Ev.made.injEq, exists_eq_right] at hx
      obtain ⟨p, _, h⟩ := mem_allCore.1 hx
      rw [(core_of h).2.1] at hu; simp at hu
    rp := fun h => by simp [State.init] at h }
  pN := (nodup_allCore c c.n).sublist List.filter_sublist

theorem run_inv (c : Cfg) (env : Env) : ∀ (ops : List Op) (s s' : State), Inv c s → run c env s ops = .ok s' → Inv c s' := by
  intro ops
  induction ops with
  | nil => intro s s' h he; simp only [run, Except.ok.injEq] at he; subst he; exact h
  | cons op ops ih =>
    intro s s' h he
    simp only [run] at he
    cases hs : step c env s op with
    | error e => rw [hs] at he; simp at he
    | ok s1 => rw [hs] at he; exact ih s1 s' (step_inv c env s s1 op h hs) he

theorem init_good (c : Cfg) : PA c (State.init c) where
  com := {
    liveN := nodup_allCore c c.n
    loN := fun x _ => Iff.rfl
    loS := fun x p hp => by
      rw [own_init]
      constructor
      · intro hx
        obtain ⟨q, hq, h⟩ := mem_allCore.1 hx
        have := (core_of h).1
        rw [hp] at this
        have := Option.some.inj this
        subst this
        exact ⟨hq, h⟩
      · intro h; exact mem_allCore.2 ⟨p, h⟩
    ownOf := fun p x hx => (core_of (own_init.1 hx).2).1
    ownN := (init_inv c).k.oN
    userOf := fun p x hx hu => by rw [(core_of (own_init.1 hx).2).2.1] at hu; simp at hu
    pointsN := nodup_allCore c c.n
    fresh := fun x hu hx => by
      have hx : x ∈ (List.range c.n).flatMap (core c) := by
        rcases hx with h | h | h
        · exact h
        · exact h
        · simp [State.init] at h
      obtain ⟨p, _, h⟩ := mem_allCore.1 hx
      rw [(core_of h).2.1] at hu; simp at hu
    extT := fun x hx hu => by
      obtain ⟨p, _, h⟩ := mem_allCore.1 hx
      rw [(core_of h).2.2] at hu; simp at hu
    q := ⟨by simp [State.init], fun x => by simp [State.init]⟩
    rb := (init_safe c).safe.rb
    rl := (init_safe c).rl (by simp [State.init]) }
  rs := by
    have := c.hvshut
    have := shut_lt c
    simp only [State.init, Cfg.shut] at *
    simp [*]
  st := by simp [State.init]
  deact := rfl
  null := rfl
  active q := by simp [State.init]
  core p hp x hx := ⟨own_init.2 ⟨hp, hx⟩, by simp [State.init]⟩
  ownLife := by simp [State.init, life_lt c]
  ownB p hp := by simp [State.init, Nat.not_lt.2 hp]
  ownCore p x hx _ := (own_init.1 hx).2
  pts x hx _ := .inl hx
  hp := mem_allCore.2 ⟨c.life, life_lt c, hInt_core c⟩

/-! ## steps without late subscriptions -/

/-- no subscription is made or undone by the user after the plugins have been deactivated, and none to an address of
another locality without the starter plugin -/
def Op.clean : Op → Bool
  | .lateSubscribe _ _ => false
  | .lateUnsubscribe _ => false
  | .subscribe b e => b || !e
  | _ => true

theorem PA.mark {c : Cfg} {s : State} (h : PA c s) {x : Sub} (hu : x.user = true) (hx : x ∈ s.points) : PA c (Lifetime.mark x s) := by
  by_cases hxu : x ∈ s.uns
  · simp only [Lifetime.mark]; rw [if_pos hxu]; exact h
  · have hl : x ∈ s.live := by
      rcases h.pts x hx hu with h1 | h1
      · exact h1
      · exact absurd h1 hxu
    have f := frame_mark x s
    have hc := h.com.markAll [x] (by simpa using hl)
    simp only [markAll] at hc
    have hm := fun y => mem_uns_mark (x := x) (y := y) (s := s)
    generalize Lifetime.mark x s = s1 at *
    exact {
      com := hc
      rs := by rw [f.react]; exact h.rs
      st := by rw [f.st]; exact h.st
      deact := by rw [f.deact]; exact h.deact
      null := by rw [f.lifeNull]; exact h.null
      active := by rw [f.active]; exact h.active
      core := fun p hp y hy => by
        rw [f.own, hm]
        refine ⟨(h.core p hp y hy).1, ?_⟩
        rintro (rfl | h1)
        · rw [(core_of hy).2.1] at hu; simp at hu
        · exact (h.core p hp y hy).2 h1
      ownLife := by rw [f.own]; exact h.ownLife
      ownB := by rw [f.own]; exact h.ownB
      ownCore := by rw [f.own]; exact h.ownCore
      pts := fun y hy hyu => by
        rw [f.points] at hy
        rw [f.live, hm]
        rcases h.pts y hy hyu with h1 | h1
        · exact .inl h1
        · exact .inr (.inr h1)
      hp := by rw [f.points]; exact h.hp }

theorem PA.subscribe {c : Cfg} {s : State} (h : PA c s) (b e : Bool) (hbe : b = true ∨ e = false) :
    ∃ s', Lifetime.subscribe c b e s = .ok s' ∧ PA c s' := by
  have hsn : c.starter < c.n := by have := c.hn; simp only [Cfg.starter]; omega
  have hsl : c.starter ≠ c.life := by have := shut_lt_starter c; simp only [Cfg.shut] at this; omega
  simp only [Lifetime.subscribe]
  rw [if_neg (by rw [h.null, (h.active c.starter).2 hsn]; simp)]
  generalize hx : (⟨if b = true then some c.starter else none, true, s.next, e⟩ : Sub) = x
  have hu : x.user = true := by subst hx; rfl
  have hid : x.uid = s.next := by subst hx; rfl
  have hext : x.ext = true → x.owner = some c.starter := by
    subst hx
    rcases hbe with rfl | rfl
    · simp
    · simp
  have hnew : ¬ (x ∈ s.live ∨ x ∈ s.points ∨ x ∈ s.uns) := fun h1 => absurd (h.com.fresh x hu h1) (by rw [hid]; exact Nat.lt_irrefl _)
  have hnl : x ∉ s.live := fun h1 => hnew (.inl h1)
  have hnp : x ∉ s.points := fun h1 => hnew (.inr (.inl h1))
  have hnu : x ∉ s.uns := fun h1 => hnew (.inr (.inr h1))
  have nd : ∀ l : List Sub, l.Nodup → x ∉ l → (l ++ [x]).Nodup := by
    intro l hl hn
    refine List.nodup_append.2 ⟨hl, by simp, ?_⟩
    intro a ha d hd had
    rw [List.mem_singleton] at hd
    subst had hd
    exact hn ha
  have hfresh : ∀ y, y.user = true → y ∈ s.live ++ [x] ∨ y ∈ s.points ++ [x] ∨ y ∈ s.uns → y.uid < s.next + 1 := by
    intro y hy h1
    by_cases e : y = x
    · rw [e, hid]; exact Nat.lt_succ_self _
    · simp only [List.mem_append, List.mem_singleton, e, or_false] at h1
      exact Nat.lt_succ_of_lt (h.com.fresh y hy h1)
  have hextT : ∀ y ∈ s.live ++ [x], y.ext = true → y.owner = some c.starter := by
    intro y hy
    rcases List.mem_append.1 hy with hy | hy
    · exact h.com.extT y hy
    · rw [List.mem_singleton.1 hy]; exact hext
  have hq : s.queue.Nodup ∧ ∀ y, y ∈ s.queue ↔ y ∈ s.live ++ [x] ∧ y ∈ s.uns := by
    refine ⟨h.com.q.1, fun y => ?_⟩
    rw [h.com.q.2 y, List.mem_append, List.mem_singleton]
    constructor
    · rintro ⟨h1, h2⟩; exact ⟨.inl h1, h2⟩
    · rintro ⟨h1 | rfl, h2⟩
      · exact ⟨h1, h2⟩
      · exact absurd h2 hnu
  have hpts : ∀ y ∈ s.points ++ [x], y.user = true → y ∈ s.live ++ [x] ∨ y ∈ s.uns := by
    intro y hy hyu
    rcases List.mem_append.1 hy with hy | hy
    · rcases h.pts y hy hyu with h1 | h1
      · exact .inl (List.mem_append_left _ h1)
      · exact .inr h1
    · exact .inl (List.mem_append_right _ hy)
  cases b with
  | false =>
    have hn : x.owner = none := by subst hx; rfl
    simp only [Bool.false_eq_true, if_false]
    refine ⟨_, rfl, ⟨⟨nd _ h.com.liveN hnl, ?_, ?_, h.com.ownOf, h.com.ownN, h.com.userOf, nd _ h.com.pointsN hnp, hfresh, hextT, hq, h.com.rb, h.com.rl⟩,
      h.rs, h.st, h.deact, h.null, h.active, h.core, h.ownLife, h.ownB, h.ownCore, hpts, List.mem_append_left _ h.hp⟩⟩
    · intro y hy
      simp only [List.mem_append, List.mem_singleton, h.com.loN y hy]
    · intro y p hy
      simp only [List.mem_append, List.mem_singleton]
      rw [h.com.loS y p hy]
      constructor
      · rintro (h1 | rfl)
        · exact h1
        · rw [hn] at hy; simp at hy
      · exact .inl
  | true =>
    have ho : x.owner = some c.starter := by subst hx; rfl
    have hup : ∀ q y, y ∈ upd s.own c.starter (s.own c.starter ++ [x]) q ↔ y ∈ s.own q ∨ (q = c.starter ∧ y = x) := by
      intro q y
      simp only [upd]
      by_cases e : q = c.starter
      · subst e; simp
      · simp [e]
    simp only [if_true]
    refine ⟨_, rfl, ⟨⟨nd _ h.com.liveN hnl, ?_, ?_, ?_, ?_, ?_, nd _ h.com.pointsN hnp, hfresh, hextT, hq, h.com.rb, h.com.rl⟩,
      h.rs, h.st, h.deact, h.null, h.active, ?_, ?_, ?_, ?_, hpts, List.mem_append_left _ h.hp⟩⟩
    · intro y hy
      simp only [List.mem_append, List.mem_singleton, h.com.loN y hy]
    · intro y p hy
      simp only
      rw [hup, List.mem_append, List.mem_singleton, h.com.loS y p hy]
      constructor
      · rintro (h1 | rfl)
        · exact .inl h1
        · rw [ho] at hy; exact .inr ⟨(Option.some.inj hy).symm, rfl⟩
      · rintro (h1 | ⟨_, h1⟩)
        · exact .inl h1
        · exact .inr h1
    · intro q y hy
      rcases (hup q y).1 hy with h1 | ⟨rfl, rfl⟩
      · exact h.com.ownOf q y h1
      · exact ho
    · intro q
      simp only [upd]
      by_cases e : q = c.starter
      · simp only [if_pos e]
        exact nd _ (h.com.ownN _) (fun h1 => hnl ((h.com.loS x _ ho).2 h1))
      · simp only [if_neg e]; exact h.com.ownN q
    · intro q y hy hyu
      rcases (hup q y).1 hy with h1 | ⟨rfl, rfl⟩
      · exact h.com.userOf q y h1 hyu
      · rfl
    · intro p hp y hy
      exact ⟨(hup p y).2 (.inl (h.core p hp y hy).1), (h.core p hp y hy).2⟩
    · simp only; rw [upd_ne _ _ (Ne.symm hsl)]; exact h.ownLife
    · intro p hp; simp only; rw [upd_ne _ _ (by omega)]; exact h.ownB p hp
    · intro q y hy hyu
      rcases (hup q y).1 hy with h1 | ⟨rfl, rfl⟩
      · exact h.ownCore q y h1 hyu
      · rw [hu] at hyu; simp at hyu

theorem step_good (c : Cfg) (env : Env) (s : State) (op : Op) (h : Good c s) (hc : op.clean = true) :
    (∃ s', step c env s op = .ok s' ∧ Good c s') ∨ step c env s op = .error .illegal := by
  rcases h with h | h | ⟨h, hr⟩
  · have hput : ∀ s', PA c s' ∨ PB c s' → Good c s' := by
      rintro s' (h | h)
      · exact .inl h
      · exact .inr (.inl h)
    cases op with
    | request =>
      simp only [step]
      by_cases hs : s.st.rank < AState.shuttingDown.rank
      · rw [if_pos hs]
        obtain ⟨s', g1, g2, _⟩ := continue_A (s := { s with st := .shuttingDown }) env
          (h.of rfl rfl rfl rfl rfl rfl (fun _ _ => rfl) (by simp) rfl rfl rfl) rfl
        exact .inl ⟨s', g1, hput s' g2⟩
      · rw [if_neg hs]; exact .inr rfl
    | cont p =>
      simp only [step]
      by_cases hs : s.st = .shuttingDown ∧ s.active p = true ∧ p ≠ c.life ∧ p ≠ c.shut
      · rw [if_pos hs]
        obtain ⟨s', g1, g2, _⟩ := continue_A env h hs.1
        exact .inl ⟨s', g1, hput s' g2⟩
      · rw [if_neg hs]; exact .inr rfl
    | join p =>
      simp only [step]
      by_cases hs : s.react c.shut = true ∧ c.shut < p ∧ p < c.n
      · rw [if_pos hs]
        exact .inl ⟨_, rfl, .inl (h.of rfl rfl rfl rfl rfl rfl (fun i hi => upd_ne _ _ (by omega)) h.st rfl rfl rfl)⟩
      · rw [if_neg hs]; exact .inr rfl
    | confirm =>
      obtain ⟨s', g1, g2⟩ := confirm_A env h
      exact .inl ⟨s', g1, .inl g2⟩
    | subscribe b e =>
      simp only [step]
      rw [if_pos h.rs]
      obtain ⟨s', g1, g2⟩ := h.subscribe b e (by simpa [Op.clean] using hc)
      exact .inl ⟨s', g1, .inl g2⟩
    | unsubscribe x =>
      simp only [step]
      by_cases hs : s.react c.shut = true ∧ x.user = true ∧ x ∈ s.points
      · rw [if_pos hs]
        exact .inl ⟨_, rfl, .inl (h.mark hs.2.1 hs.2.2)⟩
      · rw [if_neg hs]; exact .inr rfl
    | lateSubscribe b e => simp [Op.clean] at hc
    | lateUnsubscribe x => simp [Op.clean] at hc
  · cases op with
    | request => simp only [step]; rw [if_neg (by rw [h.b.st]; simp)]; exact .inr rfl
    | cont p =>
      simp only [step]
      by_cases hs : s.st = .shuttingDown ∧ s.active p = true ∧ p ≠ c.life ∧ p ≠ c.shut
      · rw [if_pos hs]
        have hpd := (h.b.deact p hs.2.2.1).2 (h.b.act p hs.2.2.1 (fun h => h) hs.2.1)
        have hl : L1 c s ∨ L2 c s := by
          rcases h.l with ⟨h1, _⟩ | ⟨h1, _⟩
          · exact .inl h1
          · exact .inr h1
        have hnull : s.lifeNull = false := by
          rcases h.l with ⟨h1, _⟩ | ⟨_, h1⟩
          · exact h1.2.2
          · cases hn : s.lifeNull with
            | false => rfl
            | true => rw [h1 hn, List.mem_singleton] at hpd; exact absurd hpd hs.2.2.1
        obtain ⟨s', g1, g2, g3, g4, g5, g6⟩ := continue_B env h.b hnull hl
        exact .inl ⟨s', g1, .inr (.inl ⟨g2, g3, g6⟩)⟩
      · rw [if_neg hs]; exact .inr rfl
    | join p => simp only [step]; rw [if_neg (by rw [h.b.rs]; simp)]; exact .inr rfl
    | confirm =>
      obtain ⟨s', g1, g2, _⟩ := confirm_B env h
      exact .inl ⟨s', g1, .inr g2⟩
    | subscribe b e => simp only [step]; rw [if_neg (by rw [h.b.rs]; simp)]; exact .inr rfl
    | unsubscribe x => simp only [step]; rw [if_neg (by rw [h.b.rs]; simp)]; exact .inr rfl
    | lateSubscribe b e => simp [Op.clean] at hc
    | lateUnsubscribe x => simp [Op.clean] at hc
  · cases op with
    | request => simp only [step]; rw [if_neg (by rw [h.st]; simp [AState.rank])]; exact .inr rfl
    | cont p => simp only [step]; rw [if_neg (by rw [h.st]; simp)]; exact .inr rfl
    | join p => simp only [step]; rw [if_neg (by rw [hr]; simp)]; exact .inr rfl
    | confirm => simp only [step, confirm, h.queue]; exact .inl ⟨s, rfl, .inr (.inr ⟨h, hr⟩)⟩
    | subscribe b e => simp only [step]; rw [if_neg (by rw [hr]; simp)]; exact .inr rfl
    | unsubscribe x => simp only [step]; rw [if_neg (by rw [hr]; simp)]; exact .inr rfl
    | lateSubscribe b e => simp [Op.clean] at hc
    | lateUnsubscribe x => simp [Op.clean] at hc

theorem run_good (c : Cfg) (env : Env) : ∀ (ops : List Op) (s : State), Good c s → (∀ op ∈ ops, op.clean = true) →
    (∃ s', run c env s ops = .ok s' ∧ Good c s') ∨ run c env s ops = .error .illegal := by
  intro ops
  induction ops with
  | nil => intro s h _; exact .inl ⟨s, rfl, h⟩
  | cons op ops ih =>
    intro s h hc
    simp only [run]
    rcases step_good c env s op h (hc op (by simp)) with ⟨s1, g1, g2⟩ | g
    · rw [g1]; exact ih s1 g2 (fun o ho => hc o (by simp [ho]))
    · rw [g]; exact .inr rfl

/-- the remaining confirmations bring it to the end -/
theorem completes (c : Cfg) (env : Env) : ∀ (n : Nat) (s : State), PB c s → s.live.length = n →
    ∃ s', run c env s (List.replicate n .confirm) = .ok s' ∧ PD s' := by
  intro n
  induction n with
  | zero =>
    intro s h hn
    obtain ⟨s', g1, g2, x, g3, g4⟩ := confirm_B env h
    rw [List.eq_nil_of_length_eq_zero hn] at g3; simp at g3
  | succ n ih =>
    intro s h hn
    obtain ⟨s', g1, g2, x, g3, g4⟩ := confirm_B env h
    have hlen : s'.live.length = n := by rw [g4, List.length_erase_of_mem g3, hn]; rfl
    simp only [List.replicate_succ, run, step]
    rw [g1]
    simp only
    rcases g2 with g2 | ⟨g2, _⟩
    · exact ih s' g2 hlen
    · have : n = 0 := by rw [← hlen, g2.live]; rfl
      subst this
      exact ⟨s', rfl, g2⟩

end Verif.Lifetime
