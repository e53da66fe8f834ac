import Verif.Configure.Model
/-!
# Properties of the configuration of plugins (C71)
-/

namespace Verif.Configure
open Verif

/-- what holds of the plugins of the library: only one of them waits for the request, it is not configured by itself, and a plugin is configured at
once or late but not both, and late only if it takes part in the initialization -/
structure Sane (c : Cfg) : Prop where
  one : ∀ p, p < c.n → ∀ q, q < c.n → (c.kind p).byRequest = true → (c.kind q).byRequest = true → p = q
  quiet : ∀ p, p < c.n → (c.kind p).byRequest = true → (c.kind p).atOnce = false ∧ (c.kind p).late = false
  notBoth : ∀ p, p < c.n → (c.kind p).atOnce = true → (c.kind p).late = false
  takesPart : ∀ p, p < c.n → (c.kind p).late = true → (c.kind p).reacts = true

/-- number of calls of `configure` by plugin `p` in phase `ph` -/
def isConf (p : Nat) (ph : Phase) (e : Ev) : Bool := decide (e = .conf p ph)

/-- a late configuration of a plugin comes after the request and after the plugins before it have agreed -/
def Ordered (c : Cfg) : List Ev → Prop
  | [] => True
  | .conf p .initializing :: r =>
    (p < c.n → (c.kind p).late = true → .request ∈ r ∧ ∀ q, q < p → (c.kind q).reacts = true → .agree q ∈ r) ∧ Ordered c r
  | _ :: r => Ordered c r

/-- 0 or 1 -/
def one (b : Bool) : Nat := if b then 1 else 0

/-- the plugins below `m` have been activated -/
structure Act (c : Cfg) (m : Nat) (s : State) : Prop where
  live : s.live = true
  req : s.req = false
  conf : ∀ p, s.configured p = false
  nodup : s.activating.Nodup
  wait : ∀ p, p ∈ s.activating ↔ p < c.n ∧ (m ≤ p ∨ (c.kind p).byRequest = true)
  phase : ∀ p, p < c.n → s.phase p = if p < m ∧ (c.kind p).byRequest = false then .initializing else .preinit
  pre : ∀ p, p < c.n → s.log.countP (isConf p .preinit) = one (decide (p < m) && (c.kind p).early)
  ini : ∀ p, p < c.n → s.log.countP (isConf p .initializing) = one (decide (p < m) && (c.kind p).atOnce)
  reacts : ∀ p, p < m → (c.kind p).reacts = true → s.react p = true
  evs : ∀ e ∈ s.log, ∃ p ph, e = .conf p ph
  ordered : Ordered c s.log
  st : s.st = .new ∨ s.st = .initializing

/-- the state of an actor with activated plugins -/
structure Inv (c : Cfg) (s : State) : Prop where
  live : s.live = true
  nodup : s.activating.Nodup
  wait : ∀ p, p ∈ s.activating ↔ p < c.n ∧ (c.kind p).byRequest = true ∧ .request ∉ s.log
  phase : ∀ p, p < c.n → (c.kind p).byRequest = false → s.phase p = .initializing
  pre : ∀ p, p < c.n → s.log.countP (isConf p .preinit) = one (c.kind p).early
  ini : ∀ p, p < c.n → s.log.countP (isConf p .initializing) = one (c.kind p).atOnce + one (s.configured p)
  late : ∀ p, p < c.n → s.configured p = true → (c.kind p).late = true ∧ .request ∈ s.log
  todo : ∀ p, p < c.n → (c.kind p).late = true → s.configured p = false → s.react p = true
  agreed : ∀ p, p < c.n → (c.kind p).reacts = true → s.react p = false → .agree p ∈ s.log
  ordered : Ordered c s.log
  req : s.st = .initializing → s.req = true → .request ∈ s.log
  noReq : s.st = .initializing → .request ∈ s.log → s.req = true
  done : .became .initialized ∈ s.log → ∀ p, p < c.n → (c.kind p).late = true → s.configured p = true
  fin : s.st = .initialized → .became .initialized ∈ s.log

theorem act_zero (c : Cfg) : Act c 0 { State.init c with live := true } := by
  constructor <;> simp [State.init, one, Ordered, List.nodup_range]

/-- what `activate` does -/
theorem activate_spec (c : Cfg) (env : Env) (m : Nat) (s : State) (hmem : m ∈ s.activating) (hph : s.phase m = .preinit)
    (hq : (c.kind m).byRequest = true → (c.kind m).atOnce = false) :
    ∃ s', activate c env m s = .ok s' ∧ s'.live = s.live ∧ s'.req = s.req ∧ s'.configured = s.configured ∧
      s'.activating = (if (c.kind m).byRequest then s.activating else s.activating.erase m) ∧
      s'.phase = (if (c.kind m).byRequest then s.phase else upd s.phase m .initializing) ∧
      s'.log = (if (c.kind m).atOnce then [.conf m .initializing] else []) ++ ((if (c.kind m).early then [.conf m .preinit] else []) ++ s.log) ∧
      (∀ p, s.react p = true → s'.react p = true) ∧ ((c.kind m).reacts = true → s'.react m = true) ∧
      s'.st = (if (c.kind m).maker then .initializing else s.st) := by
  generalize hk : c.kind m = k at *
  obtain ⟨reacts, early, atOnce, late, maker, byRequest⟩ := k
  simp only at hq
  cases byRequest <;> cases early <;> cases reacts <;> cases atOnce <;> cases maker <;> first
    | (have := hq rfl; simp at this; done)
    | (refine ⟨_, (by simp only [activate, hk, baseActivate, configure, hmem, if_true, if_false, Bool.false_eq_true]; rfl), ?_⟩
       simp [upd, hph]
       try (intro p h; simp [h]))

theorem ordered_pre (c : Cfg) (m : Nat) (b : Bool) (l : List Ev) (h : Ordered c l) :
    Ordered c ((if b then [.conf m .preinit] else []) ++ l) := by cases b <;> exact h

theorem ordered_ini (c : Cfg) (m : Nat) (b : Bool) (l : List Ev) (h : Ordered c l) (hb : b = true → m < c.n → (c.kind m).late = false) :
    Ordered c ((if b then [.conf m .initializing] else []) ++ l) := by
  cases b with
  | false => exact h
  | true => exact ⟨fun hm hl => absurd hl (by simp [hb rfl hm]), h⟩

theorem act_step (c : Cfg) (hs : Sane c) (env : Env) (m : Nat) (s : State) (hm : m < c.n) (h : Act c m s) :
    ∃ s', activate c env m s = .ok s' ∧ Act c (m + 1) s' := by
  obtain ⟨h1, h2, h3, h4, h5, h6, h7, h8, h9, h10, h11, h12⟩ := h
  have hmem : m ∈ s.activating := (h5 m).2 ⟨hm, .inl (Nat.le_refl _)⟩
  obtain ⟨s', e, g1, g2, g3, g4, g5, g6, g7, g8, g9⟩ := activate_spec c env m s hmem (by rw [h6 m hm]; simp) (fun h => (hs.quiet m hm h).1)
  refine ⟨s', e, g1.trans h1, g2.trans h2, fun p => g3 ▸ h3 p, ?_, ?_, ?_, ?_, ?_, ?_, ?_, ?_, ?_⟩
  · rw [g4]; split
    · exact h4
    · exact h4.erase _
  · intro p
    rw [g4]
    split
    · rename_i hb
      rw [h5]
      by_cases hpm : p = m
      · subst hpm; simp [hb, hm]
      · have : m ≤ p ↔ m + 1 ≤ p := by omega
        rw [this]
    · rename_i hb
      rw [h4.mem_erase_iff, h5]
      by_cases hpm : p = m
      · subst hpm; simp [hb]
      · have : m ≤ p ↔ m + 1 ≤ p := by omega
        rw [this]; simp [hpm]
  · intro p hp
    rw [g5]
    by_cases hpm : p = m
    · subst hpm
      cases hb : (c.kind p).byRequest
      · simp [upd]
      · simp [h6 p hp, hb]
    · have : p < m ↔ p < m + 1 := by omega
      have h6' := h6 p hp
      simp only [this] at h6'
      rw [← h6']
      split
      · rfl
      · simp [upd, hpm]
  · intro p hp
    rw [g6, List.countP_append, List.countP_append, h7 p hp]
    by_cases hpm : p = m
    · subst hpm
      cases (c.kind p).atOnce <;> cases (c.kind p).early <;> simp [one, isConf]
    · have : p < m ↔ p < m + 1 := by omega
      have hmp : ¬ m = p := fun h => hpm h.symm
      cases (c.kind m).atOnce <;> cases (c.kind m).early <;> simp [one, isConf, this, hmp]
  · intro p hp
    rw [g6, List.countP_append, List.countP_append, h8 p hp]
    by_cases hpm : p = m
    · subst hpm
      cases (c.kind p).atOnce <;> cases (c.kind p).early <;> simp [one, isConf]
    · have : p < m ↔ p < m + 1 := by omega
      have hmp : ¬ m = p := fun h => hpm h.symm
      cases (c.kind m).atOnce <;> cases (c.kind m).early <;> simp [one, isConf, this, hmp]
  · intro p hp hr
    by_cases hpm : p = m
    · subst hpm; exact g8 hr
    · exact g7 p (h9 p (by omega) hr)
  · intro e he
    rw [g6] at he
    simp only [List.mem_append] at he
    rcases he with he | he | he
    · split at he
      · simp only [List.mem_singleton] at he; exact ⟨_, _, he⟩
      · cases he
    · split at he
      · simp only [List.mem_singleton] at he; exact ⟨_, _, he⟩
      · cases he
    · exact h10 e he
  · rw [g6]
    exact ordered_ini c m _ _ (ordered_pre c m _ _ h11) (fun hb hm => hs.notBoth m hm hb)
  · rw [g9]; split
    · exact .inr rfl
    · exact h12

theorem act_all (c : Cfg) (hs : Sane c) (env : Env) (s : State) (h : Act c 0 s) : ∀ m, m ≤ c.n →
    ∃ s', activateUpTo c env m s = .ok s' ∧ Act c m s' := by
  intro m
  induction m with
  | zero => intro _; exact ⟨s, rfl, h⟩
  | succ m ih =>
    intro hm
    obtain ⟨s1, e1, h1⟩ := ih (by omega)
    obtain ⟨s2, e2, h2⟩ := act_step c hs env m s1 (by omega) h1
    exact ⟨s2, by simp only [activateUpTo, e1, e2], h2⟩

theorem act_inv (c : Cfg) (hs : Sane c) (s : State) (h : Act c c.n s) : Inv c s := by
  obtain ⟨h1, h2, h3, h4, h5, h6, h7, h8, h9, h10, h11, h12⟩ := h
  have hno : ∀ e, (∀ p ph, e ≠ .conf p ph) → e ∉ s.log := by
    intro e hne he
    obtain ⟨p, ph, rfl⟩ := h10 e he
    exact hne p ph rfl
  have hnr : .request ∉ s.log := hno _ (by simp)
  refine ⟨h1, h4, ?_, ?_, ?_, ?_, ?_, ?_, ?_, h11, ?_, ?_, ?_, ?_⟩
  · intro p
    rw [h5]
    simp only [hnr, not_false_eq_true, and_true]
    constructor
    · rintro ⟨ha, hb | hb⟩
      · omega
      · exact ⟨ha, hb⟩
    · rintro ⟨ha, hb⟩; exact ⟨ha, .inr hb⟩
  · intro p hp hb; rw [h6 p hp]; simp [hp, hb]
  · intro p hp; rw [h7 p hp]; simp [hp]
  · intro p hp; rw [h8 p hp, h3 p]; simp [hp, one]
  · intro p hp hc; rw [h3 p] at hc; cases hc
  · intro p hp hl _; exact h9 p hp (hs.takesPart p hp hl)
  · intro p hp hr hx; rw [h9 p hp hr] at hx; cases hx
  · intro _ hx; rw [h2] at hx; cases hx
  · intro _ hx; exact absurd hx hnr
  · intro hx; exact absurd hx (hno _ (by simp))
  · intro hx; rcases h12 with h | h <;> rw [h] at hx <;> cases hx

/-- a vote -/
theorem inv_vote (c : Cfg) (p : Nat) (s : State) (yes : Bool) (h : Inv c s) (hl : yes = true → (c.kind p).late = true → s.configured p = true) :
    Inv c { s with react := if yes then upd s.react p false else s.react, log := (if yes then .agree p else .disagree p) :: s.log } := by
  obtain ⟨h1, h2, h3, h4, h5, h6, h7, h8, h9, h10, h11, h12, h13, h14⟩ := h
  cases yes with
  | false =>
    refine ⟨h1, h2, ?_, h4, ?_, ?_, fun q hq hc => ⟨(h7 q hq hc).1, List.mem_cons_of_mem _ (h7 q hq hc).2⟩, h8, ?_, h10, ?_, ?_, ?_, ?_⟩
    all_goals simp_all [isConf]
  | true =>
    refine ⟨h1, h2, ?_, h4, ?_, ?_, fun q hq hc => ⟨(h7 q hq hc).1, List.mem_cons_of_mem _ (h7 q hq hc).2⟩, ?_, ?_, h10, ?_, ?_, ?_, ?_⟩
    · simp_all
    · simp_all [isConf]
    · simp_all [isConf]
    · intro q hq hlq hcq
      by_cases hqp : q = p
      · subst hqp; simp only at hcq; rw [hl rfl hlq] at hcq; cases hcq
      · simp only [if_true, upd, hqp, if_false]; exact h8 q hq hlq hcq
    · intro q hq hrq hx
      by_cases hqp : q = p
      · subst hqp; simp
      · simp only [if_true, upd, hqp, if_false] at hx
        exact List.mem_cons_of_mem _ (h9 q hq hrq hx)
    all_goals simp_all

/-- `handle_init` -/
theorem handle_inv (c : Cfg) (hs : Sane c) (env : Env) (p : Nat) (s : State) (hp : p < c.n) (h : Inv c s) (hst : s.st = .initializing)
    (hrq : s.req = true) (ha : ∀ q, q < p → (c.kind q).reacts = true → .agree q ∈ s.log) :
    Inv c (handleInit c env p s).1 ∧ (handleInit c env p s).1.st = .initializing ∧ (handleInit c env p s).1.req = true ∧
    ((c.kind p).late = true → (handleInit c env p s).1.configured p = true) ∧
    (∀ e ∈ s.log, e ∈ (handleInit c env p s).1.log) ∧ (∀ q, s.configured q = true → (handleInit c env p s).1.configured q = true) := by
  simp only [handleInit]
  by_cases hx : (c.kind p).late = true ∧ s.configured p = false
  · simp only [if_pos hx]
    obtain ⟨hl, hc⟩ := hx
    have hbr : (c.kind p).byRequest = false := by
      cases hb : (c.kind p).byRequest with
      | false => rfl
      | true => have := (hs.quiet p hp hb).2; rw [hl] at this; cases this
    have hat : (c.kind p).atOnce = false := by
      cases hb : (c.kind p).atOnce with
      | false => rfl
      | true => have := hs.notBoth p hp hb; rw [hl] at this; cases this
    have hreq := h.req hst hrq
    obtain ⟨h1, h2, h3, h4, h5, h6, h7, h8, h9, h10, h11, h12, h13, h14⟩ := h
    have hph := h4 p hp hbr
    refine ⟨⟨h1, h2, ?_, h4, ?_, ?_, ?_, ?_, ?_, ?_, ?_, ?_, ?_, ?_⟩, hst, hrq, ?_, ?_, ?_⟩
    · intro q; simp only [configure]; rw [h3 q]; simp
    · intro q hq; simp [configure, hph, isConf]; exact h5 q hq
    · intro q hq
      by_cases hqp : q = p
      · subst hqp
        have := h6 q hq
        rw [hc, hat] at this
        simp only [configure, hph, List.countP_cons, this, upd, hat]
        simp [isConf, one]
      · have hpq : ¬ p = q := fun h => hqp h.symm
        simp only [configure, hph, List.countP_cons, h6 q hq, upd, hqp, if_false]
        simp [isConf, hpq]
    · intro q hq hcq
      by_cases hqp : q = p
      · subst hqp; exact ⟨hl, by simp [configure, hreq]⟩
      · simp only [configure, upd, hqp, if_false] at hcq ⊢
        exact ⟨(h7 q hq hcq).1, by simp [hreq]⟩
    · intro q hq hlq hcq
      by_cases hqp : q = p
      · subst hqp; simp [configure, upd] at hcq
      · simp only [configure, upd, hqp, if_false] at hcq ⊢
        simp [h8 q hq hlq hcq]
    · intro q hq hrq hx
      simp only [configure, Bool.or_eq_false_iff] at hx
      exact List.mem_cons_of_mem _ (h9 q hq hrq hx.1)
    · simp only [configure, hph]
      exact ⟨fun _ _ => ⟨hreq, ha⟩, h10⟩
    · intro _ _; simp [configure, hreq]
    · intro _ _; exact hrq
    · intro hd q hq hlq
      simp only [configure, List.mem_cons, reduceCtorEq, false_or] at hd
      simp only [configure, upd]
      split
      · rfl
      · exact h13 hd q hq hlq
    · intro hx; exact List.mem_cons_of_mem _ (h14 hx)
    · simp [configure, upd]
    · intro e he; exact List.mem_cons_of_mem _ he
    · intro q hq; simp only [configure, upd]; split
      · rfl
      · exact hq
  · simp only [if_neg hx]
    refine ⟨h, hst, hrq, ?_, fun _ h => h, fun _ h => h⟩
    intro hl
    cases hc : s.configured p with
    | true => rfl
    | false => exact absurd ⟨hl, hc⟩ hx

/-- while the plugins are polled -/
theorem poll_inv (c : Cfg) (hs : Sane c) (env : Env) : ∀ (k p : Nat) (s : State), p + k = c.n → Inv c s → s.st = .initializing → s.req = true →
    (∀ q, q < p → (c.kind q).reacts = true → .agree q ∈ s.log) → (∀ q, q < p → (c.kind q).late = true → s.configured q = true) →
    Inv c (poll c env k p s).1 ∧ (poll c env k p s).1.st = .initializing ∧ (poll c env k p s).1.req = true ∧
    ((poll c env k p s).2 = true → ∀ q, q < c.n → (c.kind q).late = true → (poll c env k p s).1.configured q = true) := by
  intro k
  induction k with
  | zero =>
    intro p s hpk h hst hrq _ hc
    exact ⟨h, hst, hrq, fun _ q hq => hc q (by omega)⟩
  | succ k ih =>
    intro p s hpk h hst hrq ha hc
    simp only [poll]
    by_cases hr : s.react p = true
    · rw [if_pos hr]
      obtain ⟨g1, g2, g3, g4, g5, g6⟩ := handle_inv c hs env p s (by omega) h hst hrq ha
      generalize handleInit c env p s = r at *
      obtain ⟨s1, v⟩ := r
      simp only at g1 g2 g3 g4 g5 g6 ⊢
      cases v with
      | true =>
        refine ih (p + 1) _ (by omega) (inv_vote c p s1 true g1 (fun _ => g4)) g2 g3 ?_ ?_
        · intro q hq hx
          by_cases hqp : q = p
          · subst hqp; simp
          · exact List.mem_cons_of_mem _ (g5 _ (ha q (by omega) hx))
        · intro q hq hl
          by_cases hqp : q = p
          · subst hqp; exact g4 hl
          · exact g6 q (hc q (by omega) hl)
      | false => exact ⟨inv_vote c p s1 false g1 (by simp), g2, g3, by simp⟩
    · rw [if_neg hr]
      have hr : s.react p = false := by simpa using hr
      refine ih (p + 1) s (by omega) h hst hrq ?_ ?_
      · intro q hq hx
        by_cases hqp : q = p
        · subst hqp; exact h.agreed q (by omega) hx hr
        · exact ha q (by omega) hx
      · intro q hq hl
        by_cases hqp : q = p
        · subst hqp
          cases hcf : s.configured q with
          | true => rfl
          | false => rw [h.todo q (by omega) hl hcf] at hr; cases hr
        · exact hc q (by omega) hl

theorem continue_inv (c : Cfg) (hs : Sane c) (env : Env) (s : State) (h : Inv c s) (hst : s.st = .initializing) (hrq : s.req = true) :
    ∃ s', initContinue c env s = .ok s' ∧ Inv c s' := by
  obtain ⟨g1, g2, g3, g4⟩ := poll_inv c hs env c.n 0 s (by omega) h hst hrq (by intro q hq; omega) (by intro q hq; omega)
  simp only [initContinue, hst, hrq, and_self, if_true]
  generalize poll c env c.n 0 s = r at *
  obtain ⟨s1, v⟩ := r
  refine ⟨_, rfl, ?_⟩
  simp only at g1 g2 g3 g4 ⊢
  cases v with
  | false => exact g1
  | true =>
    rw [if_pos rfl]
    obtain ⟨h1, h2, h3, h4, h5, h6, h7, h8, h9, h10, h11, h12, h13, h14⟩ := g1
    refine ⟨h1, h2, ?_, h4, ?_, ?_, fun q hq hc => ⟨(h7 q hq hc).1, List.mem_cons_of_mem _ (h7 q hq hc).2⟩, h8, ?_, h10, ?_, ?_, ?_, ?_⟩
    · intro q; rw [h3 q]; simp
    · intro q hq; rw [List.countP_cons_of_neg (by simp [isConf])]; exact h5 q hq
    · intro q hq; rw [List.countP_cons_of_neg (by simp [isConf])]; exact h6 q hq
    · intro q hq hr hx; exact List.mem_cons_of_mem _ (h9 q hq hr hx)
    · intro hx; cases hx
    · intro hx; cases hx
    · intro _; exact g4 rfl
    · intro _; simp

/-- the init request, for the first time -/
theorem request_inv (c : Cfg) (hs : Sane c) (p : Nat) (s : State) (hp : p < c.n) (hb : (c.kind p).byRequest = true) (h : Inv c s)
    (hnr : .request ∉ s.log) : ∃ s', baseActivate p { s with req := true, log := .request :: s.log } = .ok s' ∧ Inv c s' ∧ s'.st = s.st ∧ s'.req = true := by
  obtain ⟨h1, h2, h3, h4, h5, h6, h7, h8, h9, h10, h11, h12, h13, h14⟩ := h
  have hmem : p ∈ s.activating := (h3 p).2 ⟨hp, hb, hnr⟩
  refine ⟨_, if_pos hmem, ?_, rfl, rfl⟩
  refine ⟨h1, h2.erase _, ?_, ?_, ?_, ?_, fun q hq hc => ⟨(h7 q hq hc).1, List.mem_cons_of_mem _ (h7 q hq hc).2⟩, h8, ?_, h10, ?_, ?_, ?_, ?_⟩
  · intro q
    rw [h2.mem_erase_iff, h3 q]
    constructor
    · rintro ⟨hne, hq, hbq, _⟩; exact absurd (hs.one q hq p hp hbq hb) hne
    · rintro ⟨_, _, hx⟩; simp at hx
  · intro q hq hbq
    simp only [upd]
    split
    · rfl
    · exact h4 q hq hbq
  · intro q hq; rw [List.countP_cons_of_neg (by simp [isConf])]; exact h5 q hq
  · intro q hq; rw [List.countP_cons_of_neg (by simp [isConf])]; exact h6 q hq
  · intro q hq hr hx; exact List.mem_cons_of_mem _ (h9 q hq hr hx)
  · intro _ _; simp
  · intro _ _; rfl
  · intro hx; simp only [List.mem_cons, reduceCtorEq, false_or] at hx; exact h13 hx
  · intro hx; exact List.mem_cons_of_mem _ (h14 hx)

/-- reachable states -/
def Reach (c : Cfg) (s : State) : Prop := s = State.init c ∨ Inv c s

theorem receiver_some {c : Cfg} {p : Nat} (h : receiver c = some p) : p < c.n ∧ (c.kind p).byRequest = true := by
  have := List.find?_some h
  have hm := List.mem_of_find?_eq_some h
  exact ⟨List.mem_range.1 hm, this⟩

theorem reach_step (c : Cfg) (hs : Sane c) (env : Env) (s s' : State) (op : Op) (h : Reach c s) (e : step c env s op = .ok s') : Inv c s' := by
  rcases h with rfl | h
  · cases op with
    | activate =>
      obtain ⟨s1, e1, h1⟩ := act_all c hs env _ (act_zero c) c.n (Nat.le_refl _)
      have e1' : step c env (State.init c) .activate = .ok s1 := e1
      rw [e1'] at e
      simp only [Except.ok.injEq] at e
      subst e
      exact act_inv c hs s1 h1
    | _ => simp [step, State.init] at e
  · have hl := h.live
    cases op with
    | activate => simp [step, hl] at e
    | initRequest =>
      simp only [step] at e
      rw [if_pos hl] at e
      simp only [onInit] at e
      split at e
      · simp only [Except.ok.injEq] at e; subst e; exact h
      · rename_i p hp
        obtain ⟨hp, hb⟩ := receiver_some hp
        split at e
        · rename_i hst
          by_cases hr : .request ∈ s.log
          · have : p ∉ s.activating := fun hm => ((h.wait p).1 hm).2.2 hr
            simp [baseActivate, this] at e
          · obtain ⟨s1, e1, h1, h2, h3⟩ := request_inv c hs p s hp hb h hr
            rw [e1] at e
            obtain ⟨s2, e2, h4⟩ := continue_inv c hs env s1 h1 (h2.trans hst) h3
            simp only [e2, Except.ok.injEq] at e
            subst e
            exact h4
        · rename_i hst
          simp only [Except.ok.injEq] at e
          subst e
          obtain ⟨h1, h2, h3, h4, h5, h6, h7, h8, h9, h10, h11, h12, h13, h14⟩ := h
          exact ⟨h1, h2, h3, h4, h5, h6, h7, h8, h9, h10, fun hx => absurd hx hst, fun _ _ => rfl, h13, h14⟩
    | cont =>
      simp only [step] at e
      split at e
      · rename_i hx
        obtain ⟨s2, e2, h4⟩ := continue_inv c hs env s h hx.2.1 hx.2.2
        simp only [e2, Except.ok.injEq] at e
        subst e
        exact h4
      · cases e
    | join p =>
      simp only [step] at e
      rw [if_pos hl] at e
      simp only [Except.ok.injEq] at e
      subst e
      obtain ⟨h1, h2, h3, h4, h5, h6, h7, h8, h9, h10, h11, h12, h13, h14⟩ := h
      refine ⟨h1, h2, h3, h4, h5, h6, h7, ?_, ?_, h10, h11, h12, h13, h14⟩
      · intro q hq hlq hc
        simp only [upd]
        split
        · rfl
        · exact h8 q hq hlq hc
      · intro q hq hr hx
        simp only [upd] at hx
        split at hx
        · cases hx
        · exact h9 q hq hr hx
    | release =>
      simp only [step] at e
      split at e
      · rename_i hx
        by_cases hr : s.req = true
        · obtain ⟨s2, e2, h4⟩ := continue_inv c hs env s h hx.2 hr
          simp only [e2, Except.ok.injEq] at e
          subst e
          exact h4
        · simp [initContinue, hr] at e
      · cases e
    | shutdown =>
      simp only [step] at e
      rw [if_pos hl] at e
      simp only [Except.ok.injEq] at e
      subst e
      obtain ⟨h1, h2, h3, h4, h5, h6, h7, h8, h9, h10, h11, h12, h13, h14⟩ := h
      exact ⟨h1, h2, h3, h4, h5, h6, h7, h8, h9, h10, fun hx => (by cases hx), fun hx => (by cases hx), h13, fun hx => (by cases hx)⟩

theorem reach_run (c : Cfg) (hs : Sane c) (env : Env) : ∀ (ops : List Op) (s s' : State), Reach c s → run c env s ops = .ok s' → Reach c s' := by
  intro ops
  induction ops with
  | nil => intro s s' h e; simp only [run, Except.ok.injEq] at e; subst e; exact h
  | cons op ops ih =>
    intro s s' h e
    simp only [run] at e
    cases hx : step c env s op with
    | error er => rw [hx] at e; cases e
    | ok s1 => rw [hx] at e; exact ih s1 s' (.inr (reach_step c hs env s s1 op h hx)) e

/-- **C71** A plugin hands itself over to `configure` at most once in each phase: in the phase PREINIT exactly the plugins that are configured early
(starter and resources), in the phase INITIALIZING those that are configured at once or late. -/
theorem C71_once (c : Cfg) (hs : Sane c) (env : Env) (ops : List Op) (s : State) (h : run c env (State.init c) ops = .ok s) (p : Nat) (hp : p < c.n) :
    s.log.countP (isConf p .preinit) ≤ 1 ∧ s.log.countP (isConf p .initializing) ≤ 1 ∧
    (s.live = true → s.log.countP (isConf p .preinit) = one (c.kind p).early) ∧
    ((c.kind p).early = false → .conf p .preinit ∉ s.log) ∧
    ((c.kind p).atOnce = false → (c.kind p).late = false → .conf p .initializing ∉ s.log) := by
  have hone : ∀ b, one b ≤ 1 := by intro b; cases b <;> simp [one]
  rcases reach_run c hs env ops _ s (.inl rfl) h with rfl | hi
  · simp [State.init]
  · have h1 := hi.pre p hp
    have h2 := hi.ini p hp
    refine ⟨by rw [h1]; exact hone _, ?_, fun _ => h1, ?_, ?_⟩
    · rw [h2]
      cases hc : s.configured p with
      | false => simp only [one, Bool.false_eq_true, if_false]; split <;> omega
      | true =>
        have hl := (hi.late p hp hc).1
        cases ha : (c.kind p).atOnce with
        | false => simp [one]
        | true => have := hs.notBoth p hp ha; rw [hl] at this; cases this
    · intro he hm
      rw [he] at h1
      have := List.countP_eq_zero.1 (h1.trans rfl) _ hm
      simp [isConf] at this
    · intro ha hl hm
      have hc : s.configured p = false := by
        cases hc : s.configured p with
        | false => rfl
        | true => have := (hi.late p hp hc).1; rw [hl] at this; cases this
      rw [ha, hc] at h2
      have := List.countP_eq_zero.1 (h2.trans rfl) _ hm
      simp [isConf] at this

theorem ordered_at (c : Cfg) : ∀ (l : List Ev), Ordered c l → ∀ (a r : List Ev) (p : Nat), l = a ++ .conf p .initializing :: r → p < c.n →
    (c.kind p).late = true → .request ∈ r ∧ ∀ q, q < p → (c.kind q).reacts = true → .agree q ∈ r := by
  intro l
  induction l with
  | nil => intro _ a r p e; cases a <;> simp at e
  | cons x l ih =>
    intro h a r p e hp hl
    cases a with
    | nil =>
      simp only [List.nil_append, List.cons.injEq] at e
      obtain ⟨rfl, rfl⟩ := e
      exact h.1 hp hl
    | cons y a =>
      simp only [List.cons_append, List.cons.injEq] at e
      obtain ⟨rfl, e⟩ := e
      refine ih ?_ a r p e hp hl
      unfold Ordered at h
      split at h <;> simp_all

/-- **C71** A plugin that is configured late (link client, registry, resources, starter) is configured when the init request has arrived and every
plugin before it in the list has agreed to the initialization: names have been discovered and links made before resources and the starter are
configured. -/
theorem C71_after_others (c : Cfg) (hs : Sane c) (env : Env) (ops : List Op) (s : State) (h : run c env (State.init c) ops = .ok s)
    (p : Nat) (hp : p < c.n) (hl : (c.kind p).late = true) (newer older : List Ev) (e : s.log = newer ++ .conf p .initializing :: older) :
    .request ∈ older ∧ ∀ q, q < p → (c.kind q).reacts = true → .agree q ∈ older := by
  rcases reach_run c hs env ops _ s (.inl rfl) h with rfl | hi
  · cases newer <;> simp [State.init] at e
  · exact ordered_at c _ hi.ordered _ _ p e hp hl

/-- **C71** An actor that has been initialized has handed over every plugin: late ones exactly once in the phase INITIALIZING, and those which are
configured at once as well. -/
theorem C71_nobody_forgotten (c : Cfg) (hs : Sane c) (env : Env) (ops : List Op) (s : State) (h : run c env (State.init c) ops = .ok s)
    (hi : .became .initialized ∈ s.log) (p : Nat) (hp : p < c.n) (hk : (c.kind p).late = true ∨ (c.kind p).atOnce = true) :
    s.log.countP (isConf p .initializing) = 1 := by
  rcases reach_run c hs env ops _ s (.inl rfl) h with rfl | hx
  · simp [State.init] at hi
  · have h2 := hx.ini p hp
    rw [h2]
    rcases hk with hk | hk
    · rw [hx.done hi p hp hk]
      cases ha : (c.kind p).atOnce with
      | false => simp [one]
      | true => have := hs.notBoth p hp ha; rw [hk] at this; cases this
    · rw [hk]
      cases hc : s.configured p with
      | false => simp [one]
      | true => have := (hx.late p hp hc).1; rw [hs.notBoth p hp hk] at this; cases this

/-- the calls of the function given to `with_casted<Plugin>(fn, desired)` in `configure` -/
def calls (p : Nat) (desired : Phase → Bool) (log : List Ev) : Nat :=
  log.countP (fun e => match e with | .conf q ph => casted p desired q ph | _ => false)

theorem calls_eq (p : Nat) (d : Phase → Bool) (l : List Ev) :
    calls p d l = (if d .preinit then l.countP (isConf p .preinit) else 0) + (if d .initializing then l.countP (isConf p .initializing) else 0) := by
  induction l with
  | nil => simp [calls]
  | cons e l ih =>
    simp only [calls] at ih ⊢
    rw [List.countP_cons, List.countP_cons, List.countP_cons, ih]
    cases e with
    | conf q ph =>
      by_cases hq : p = q
      · subst hq
        cases ph <;> cases h1 : d .preinit <;> cases h2 : d .initializing <;> simp [casted, isConf, h1, h2] <;> omega
      · have hq' : ¬ q = p := fun h => hq h.symm
        cases ph <;> simp [casted, isConf, hq, hq']
    | _ => simp [isConf]

/-- **C71** The function given to `with_casted` is called at most once for each of the phases it asks for; when the actor is initialized, a function
with the default phase has been called exactly once for plugins that are configured at once or late, and never for others. -/
theorem C71_with_casted (c : Cfg) (hs : Sane c) (env : Env) (ops : List Op) (s : State) (h : run c env (State.init c) ops = .ok s)
    (p : Nat) (hp : p < c.n) :
    (∀ d, calls p d s.log ≤ (if d .preinit then 1 else 0) + (if d .initializing then 1 else 0)) ∧
    (.became .initialized ∈ s.log →
      calls p (fun ph => ph == .initializing) s.log = one ((c.kind p).late || (c.kind p).atOnce) ∧
      calls p (fun ph => ph == .preinit) s.log = one (c.kind p).early) := by
  obtain ⟨h1, h2, h3, _, h5⟩ := C71_once c hs env ops s h p hp
  refine ⟨fun d => ?_, fun hi => ?_⟩
  · rw [calls_eq]
    cases d .preinit <;> cases d .initializing <;> simp <;> omega
  · have hl : s.live = true := by
      rcases reach_run c hs env ops _ s (.inl rfl) h with rfl | hx
      · simp [State.init] at hi
      · exact hx.live
    rw [calls_eq, calls_eq]
    simp only [beq_self_eq_true, if_true, reduceCtorEq, beq_iff_eq, if_false, Nat.zero_add, Nat.add_zero]
    refine ⟨?_, h3 hl⟩
    cases hk : (c.kind p).late || (c.kind p).atOnce with
    | true =>
      rw [C71_nobody_forgotten c hs env ops s h hi p hp (by simpa using hk)]
      rfl
    | false =>
      simp only [Bool.or_eq_false_iff] at hk
      refine List.countP_eq_zero.2 fun e he hx => ?_
      simp only [isConf, decide_eq_true_eq] at hx
      subst hx
      exact h5 hk.2 hk.1 he

/-- at most one init request, and resources are released after it: `seen` tells whether it has arrived already -/
def Polite : Bool → List Op → Prop
  | _, [] => True
  | seen, .initRequest :: ops => seen = false ∧ Polite true ops
  | seen, .release :: ops => seen = true ∧ Polite seen ops
  | seen, _ :: ops => Polite seen ops

/-- polling neither adds nor drops the request -/
theorem poll_request (c : Cfg) (env : Env) : ∀ (k p : Nat) (s : State),
    (.request ∈ (poll c env k p s).1.log ↔ .request ∈ s.log) ∧ (poll c env k p s).1.st = s.st := by
  intro k
  induction k with
  | zero => intro p s; simp [poll]
  | succ k ih =>
    intro p s
    simp only [poll]
    have hh : (.request ∈ (handleInit c env p s).1.log ↔ .request ∈ s.log) ∧ (handleInit c env p s).1.st = s.st := by
      simp only [handleInit]
      split <;> simp [configure]
    split
    · split
      · obtain ⟨a, b⟩ := ih (p + 1) { (handleInit c env p s).1 with react := upd (handleInit c env p s).1.react p false, log := .agree p :: (handleInit c env p s).1.log }
        refine ⟨a.trans ?_, b.trans hh.2⟩
        simpa using hh.1
      · simpa using hh
    · exact ih (p + 1) s

theorem continue_request (c : Cfg) (env : Env) (s s' : State) (h : initContinue c env s = .ok s') : .request ∈ s'.log ↔ .request ∈ s.log := by
  simp only [initContinue] at h
  split at h
  · simp only [Except.ok.injEq] at h
    subst h
    obtain ⟨a, _⟩ := poll_request c env c.n 0 s
    split
    · simpa using a
    · exact a
  · cases h

/-- whether the request has arrived, as far as it matters -/
def Told (seen : Bool) (s : State) : Prop := (seen = false → .request ∉ s.log) ∧ (s.st = .initializing → seen = true → .request ∈ s.log)

theorem continue_told (c : Cfg) (env : Env) (s s' : State) (seen : Bool) (h : initContinue c env s = .ok s') (ht : Told seen s) (hst : s.st = .initializing) :
    Told seen s' := by
  have := continue_request c env s s' h
  exact ⟨fun hs hm => ht.1 hs (this.1 hm), fun _ hs => this.2 (ht.2 hst hs)⟩

theorem no_fault_step (c : Cfg) (hs : Sane c) (env : Env) (hrc : receiver c ≠ none) (s : State) (op : Op) (seen : Bool) (h : Reach c s) (ht : Told seen s)
    (h0 : s.live = false → seen = false) (h1 : op = .initRequest → seen = false) (h2 : op = .release → seen = true) :
    step c env s op = .error .illegal ∨ ∃ s', step c env s op = .ok s' ∧ Told (seen || decide (op = .initRequest)) s' := by
  rcases h with rfl | h
  · cases op with
    | activate =>
      obtain ⟨s1, e1, g1⟩ := act_all c hs env _ (act_zero c) c.n (Nat.le_refl _)
      have e1' : step c env (State.init c) .activate = .ok s1 := e1
      have hn : .request ∉ s1.log := fun hm => by obtain ⟨p, ph, hx⟩ := g1.evs _ hm; cases hx
      have hf := h0 rfl
      subst hf
      exact .inr ⟨s1, e1', fun _ => hn, fun _ hx => (by simp at hx)⟩
    | _ => exact .inl (by simp [step, State.init])
  · have hl := h.live
    cases op with
    | activate => exact .inl (by simp [step, hl])
    | initRequest =>
      simp only [step]
      rw [if_pos hl]
      simp only [onInit]
      cases hr : receiver c with
      | none => exact absurd hr hrc
      | some p =>
        obtain ⟨hp, hb⟩ := receiver_some hr
        simp only
        split
        · rename_i hst
          obtain ⟨s1, e1, g1, g2, g3⟩ := request_inv c hs p s hp hb h (ht.1 (h1 rfl))
          rw [e1]
          obtain ⟨s2, e2, g4⟩ := continue_inv c hs env s1 g1 (g2.trans hst) g3
          have hrl : .request ∈ s2.log := (continue_request c env s1 s2 e2).2 (g1.req (g2.trans hst) g3)
          exact .inr ⟨s2, e2, fun hx => (by simp at hx), fun _ _ => hrl⟩
        · rename_i hst
          exact .inr ⟨_, rfl, fun hx => (by simp at hx), fun hx => absurd hx hst⟩
    | cont =>
      simp only [step]
      split
      · rename_i hx
        obtain ⟨s2, e2, g4⟩ := continue_inv c hs env s h hx.2.1 hx.2.2
        exact .inr ⟨s2, e2, by simpa using continue_told c env s s2 seen e2 ht hx.2.1⟩
      · exact .inl rfl
    | join p =>
      simp only [step]
      rw [if_pos hl]
      exact .inr ⟨_, rfl, by simpa [Told] using ht⟩
    | release =>
      simp only [step]
      split
      · rename_i hx
        obtain ⟨s2, e2, g4⟩ := continue_inv c hs env s h hx.2 (h.noReq hx.2 (ht.2 hx.2 (h2 rfl)))
        exact .inr ⟨s2, e2, by simpa using continue_told c env s s2 seen e2 ht hx.2⟩
      · exact .inl rfl
    | shutdown =>
      simp only [step]
      rw [if_pos hl]
      exact .inr ⟨_, rfl, fun hx => ht.1 (by simpa using hx), fun hx => (by cases hx)⟩

theorem no_fault_run (c : Cfg) (hs : Sane c) (env : Env) (hrc : receiver c ≠ none) : ∀ (ops : List Op) (seen : Bool) (s : State), Reach c s → Told seen s →
    (s.live = false → seen = false) → Polite seen ops → run c env s ops ≠ .error .fault := by
  intro ops
  induction ops with
  | nil => intro seen s _ _ _ _ e; cases e
  | cons op ops ih =>
    intro seen s h ht h0 hp e
    simp only [run] at e
    have hq : (op = .initRequest → seen = false) ∧ (op = .release → seen = true) ∧ Polite (seen || decide (op = .initRequest)) ops := by
      cases op <;> cases seen <;> simp_all [Polite]
    rcases no_fault_step c hs env hrc s op seen h ht h0 hq.1 hq.2.1 with hx | ⟨s', hx, ht'⟩
    · rw [hx] at e; cases e
    · rw [hx] at e
      have hi := reach_step c hs env s s' op h hx
      exact ih _ s' (.inr hi) ht' (fun hl => by rw [hi.live] at hl; cases hl) hq.2.2 e

/-- **C71** With at most one init request and resources that are released only after it, no assertion of the initialization fails
(`actor_base.cpp:67`, `148-149`); the counterexamples below show that both conditions are needed. -/
theorem C71_no_fault_partial (c : Cfg) (hs : Sane c) (hr : receiver c ≠ none) (env : Env) (ops : List Op) (hp : Polite false ops) :
    run c env (State.init c) ops ≠ .error .fault :=
  no_fault_run c hs env hr ops false _ (.inl rfl) ⟨fun _ => by simp [State.init], fun h => by simp [State.init] at h⟩ (fun _ => rfl) hp

/-! ### The plugins of the library -/

theorem sane_actor : Sane (ofList actorPlugins) := by
  constructor <;> decide

theorem sane_supervisor : Sane (ofList supervisorPlugins) := by
  constructor <;> decide

/-- **C71** For the plugins of an actor: the starter is configured for the second time after the lifetime plugin, the receiver of the init request, the
links, the name service and the resources have agreed. -/
theorem C71_starter_last (env : Env) (ops : List Op) (s : State) (h : run (ofList actorPlugins) env (State.init (ofList actorPlugins)) ops = .ok s)
    (p : Nat) (hp : actorList[p]? = some .starter) (newer older : List Ev) (e : s.log = newer ++ .conf p .initializing :: older) :
    .request ∈ older ∧ ∀ x, x ∈ [Plugin.lifetime, .initShutdown, .linkClient, .registry, .resources] → ∃ q, actorList[q]? = some x ∧ .agree q ∈ older := by
  obtain ⟨hlt, _⟩ := List.getElem?_eq_some_iff.1 hp
  have h7 : ∀ p, p < 8 → actorList[p]? = some .starter → p = 7 := by decide
  have := h7 p hlt hp
  subst this
  obtain ⟨a, b⟩ := C71_after_others _ sane_actor env ops s h 7 (by decide) (by decide) newer older e
  have hq : ∀ x, x ∈ [Plugin.lifetime, .initShutdown, .linkClient, .registry, .resources] →
      ∃ q, q < 7 ∧ ((ofList actorPlugins).kind q).reacts = true ∧ actorList[q]? = some x := by decide
  refine ⟨a, fun x hx => ?_⟩
  obtain ⟨q, h1, h2, h3⟩ := hq x hx
  exact ⟨q, h3, b q h1 h2⟩

/-- **C71** For the plugins of a supervisor: the same, and the manager of the children has agreed. -/
theorem C71_supervisor_starter_last (env : Env) (ops : List Op) (s : State)
    (h : run (ofList supervisorPlugins) env (State.init (ofList supervisorPlugins)) ops = .ok s)
    (p : Nat) (hp : supervisorList[p]? = some .starter) (newer older : List Ev) (e : s.log = newer ++ .conf p .initializing :: older) :
    .request ∈ older ∧ ∀ x, x ∈ [Plugin.lifetime, .initShutdown, .childManager, .linkClient, .registry, .resources] →
      ∃ q, supervisorList[q]? = some x ∧ .agree q ∈ older := by
  obtain ⟨hlt, _⟩ := List.getElem?_eq_some_iff.1 hp
  have h11 : ∀ p, p < 12 → supervisorList[p]? = some .starter → p = 11 := by decide
  have := h11 p hlt hp
  subst this
  obtain ⟨a, b⟩ := C71_after_others _ sane_supervisor env ops s h 11 (by decide) (by decide) newer older e
  have hq : ∀ x, x ∈ [Plugin.lifetime, .initShutdown, .childManager, .linkClient, .registry, .resources] →
      ∃ q, q < 11 ∧ ((ofList supervisorPlugins).kind q).reacts = true ∧ supervisorList[q]? = some x := by decide
  refine ⟨a, fun x hx => ?_⟩
  obtain ⟨q, h1, h2, h3⟩ := hq x hx
  exact ⟨q, h3, b q h1 h2⟩

/-- **C71** How often an actor that is initialized has been asked to configure its plugins, in the order of its list: in the phase PREINIT for the resources
and the starter, in the phase INITIALIZING for the addresses, the links, the name service, the resources and the starter. -/
theorem C71_library_actor (env : Env) (ops : List Op) (s : State) (h : run (ofList actorPlugins) env (State.init (ofList actorPlugins)) ops = .ok s)
    (hi : .became .initialized ∈ s.log) :
    (List.range 8).map (fun p => s.log.countP (isConf p .preinit)) = [0, 0, 0, 0, 0, 0, 1, 1] ∧
    (List.range 8).map (fun p => s.log.countP (isConf p .initializing)) = [1, 0, 0, 0, 1, 1, 1, 1] := by
  have key : ∀ p, p < 8 → s.log.countP (isConf p .preinit) = one ((ofList actorPlugins).kind p).early ∧
      s.log.countP (isConf p .initializing) = one (((ofList actorPlugins).kind p).late || ((ofList actorPlugins).kind p).atOnce) := by
    intro p hp
    obtain ⟨h1, h2⟩ := (C71_with_casted _ sane_actor env ops s h p hp).2 hi
    rw [calls_eq] at h1 h2
    exact ⟨by simpa using h2, by simpa using h1⟩
  have hr : ∀ {g k : Nat → Nat}, (∀ p, p < 8 → g p = k p) → (List.range 8).map g = (List.range 8).map k := fun hgk =>
    List.map_congr_left fun p hp => hgk p (List.mem_range.1 hp)
  rw [hr fun p hp => (key p hp).1, hr fun p hp => (key p hp).2]
  decide

/-- **C71** The same for a supervisor, whose manager of children (plugin 6) is configured in the phase INITIALIZING. -/
theorem C71_library_supervisor (env : Env) (ops : List Op) (s : State)
    (h : run (ofList supervisorPlugins) env (State.init (ofList supervisorPlugins)) ops = .ok s) (hi : .became .initialized ∈ s.log) :
    (List.range 12).map (fun p => s.log.countP (isConf p .preinit)) = [0, 0, 0, 0, 0, 0, 0, 0, 0, 0, 1, 1] ∧
    (List.range 12).map (fun p => s.log.countP (isConf p .initializing)) = [1, 0, 0, 0, 0, 0, 1, 0, 1, 1, 1, 1] := by
  have key : ∀ p, p < 12 → s.log.countP (isConf p .preinit) = one ((ofList supervisorPlugins).kind p).early ∧
      s.log.countP (isConf p .initializing) = one (((ofList supervisorPlugins).kind p).late || ((ofList supervisorPlugins).kind p).atOnce) := by
    intro p hp
    obtain ⟨h1, h2⟩ := (C71_with_casted _ sane_supervisor env ops s h p hp).2 hi
    rw [calls_eq] at h1 h2
    exact ⟨by simpa using h2, by simpa using h1⟩
  have hr : ∀ {g k : Nat → Nat}, (∀ p, p < 12 → g p = k p) → (List.range 12).map g = (List.range 12).map k := fun hgk =>
    List.map_congr_left fun p hp => hgk p (List.mem_range.1 hp)
  rw [hr fun p hp => (key p hp).1, hr fun p hp => (key p hp).2]
  decide

/-- a user that does nothing, plugins that agree -/
def calm : Env := { vote := fun _ => true, acts := fun _ => [] }

/-- **C71** A second init request for an actor that is being initialized makes the actor fail its assertion (`actor_base.cpp:67`): the supervisor sends
only one, but the address of an actor is known to everybody. -/
theorem C71_second_request_counterexample : run (ofList actorPlugins) { vote := fun _ => false, acts := fun _ => [] } (State.init (ofList actorPlugins))
    [.activate, .initRequest, .initRequest] = .error .fault := by rfl

/-- **C71** A resource that is acquired in the phase PREINIT and released before the init request arrives fails the assertion that there is a request
(`actor_base.cpp:149`). -/
theorem C71_early_release_counterexample : run (ofList actorPlugins) calm (State.init (ofList actorPlugins)) [.activate, .release] = .error .fault := by rfl

/-- **C71** Functions for the phase PREINIT are never called for the plugins that make addresses, link, look for names or manage children: such
a request of the user is silently without effect, in every execution. -/
theorem C71_preinit_ignored_counterexample (env : Env) (ops : List Op) (s : State)
    (h : run (ofList supervisorPlugins) env (State.init (ofList supervisorPlugins)) ops = .ok s) (p : Nat) (hp : p < (ofList supervisorPlugins).n)
    (he : ((ofList supervisorPlugins).kind p).early = false) : calls p (fun ph => ph == .preinit) s.log = 0 := by
  obtain ⟨_, _, _, h4, _⟩ := C71_once _ sane_supervisor env ops s h p hp
  refine List.countP_eq_zero.2 fun e hm hx => ?_
  cases e with
  | conf q ph =>
    simp only [casted, Bool.and_eq_true, beq_iff_eq] at hx
    obtain ⟨rfl, rfl⟩ := hx
    exact h4 he hm
  | _ => simp at hx

/-! ### Concrete executions -/

/-- an actor that is initialized at once: starter and resources are configured twice, the others once -/
example : ∃ s, run (ofList actorPlugins) calm (State.init (ofList actorPlugins)) [.activate, .initRequest] = .ok s ∧ s.st = .initialized ∧
    .became .initialized ∈ s.log ∧ s.log.countP (isConf 7 .initializing) = 1 ∧ s.log.countP (isConf 7 .preinit) = 1 ∧ calls 4 (fun _ => true) s.log = 1 :=
  ⟨_, rfl, by decide, by decide, by decide, by decide, by decide⟩

/-- a plugin disagrees at first, so that `init_continue` is called again -/
example : ∃ s, run (ofList actorPlugins) { vote := fun l => l.any (fun e => match e with | .disagree _ => true | _ => false), acts := fun _ => [] } (State.init (ofList actorPlugins))
    [.activate, .initRequest, .cont] = .ok s ∧ s.st = .initialized ∧ ∃ newer older, s.log = newer ++ .conf 7 .initializing :: older :=
  ⟨_, rfl, by decide, [.became .initialized, .agree 7], _, rfl⟩

example : Polite false [.activate, .join 6, .initRequest, .release, .shutdown] := by simp [Polite]

/-- a supervisor whose plugins agree: the hypotheses of `C71_library_supervisor` and `C71_supervisor_starter_last` are met -/
example : ∃ s newer older, run (ofList supervisorPlugins) calm (State.init (ofList supervisorPlugins)) [.activate, .initRequest] = .ok s ∧
    .became .initialized ∈ s.log ∧ s.log = newer ++ .conf 11 .initializing :: older :=
  ⟨_, [.became .initialized, .agree 11], _, rfl, by decide, rfl⟩

end Verif.Configure
