import Verif.SupTeardown.Lemmas
/-! # The two phases of the shutdown of a supervisor (C72)

`A`: the plugins are not deactivated yet; `B`: they are. -/

namespace Verif.SupTeardown
open Verif

theorem upd_self {α : Type} (f : Nat → α) (i : Nat) (v : α) (h : f i = v) : upd f i v = f := by
  funext j
  by_cases e : j = i
  · subst e; rw [upd_same, h]
  · rw [upd_ne _ _ e]

theorem mem_order (c : Cfg) (p : Nat) : p ∈ c.order ↔ p < c.n := by simp [Cfg.order]

theorem order_nodup (c : Cfg) : c.order.Nodup := by
  rw [Cfg.order, List.Nodup, List.pairwise_reverse]
  exact (List.nodup_range (n := c.n)).imp fun h => Ne.symm h

theorem range_split (n p : Nat) (h : p < n) : ∃ hi lo, (List.range n).reverse = hi ++ p :: lo ∧
    (∀ q, q ∈ hi ↔ p < q ∧ q < n) ∧ (∀ q, q ∈ lo ↔ q < p) := by
  induction n with
  | zero => omega
  | succ n ih =>
    rw [List.range_succ, List.reverse_append]
    by_cases e : p = n
    · subst e
      refine ⟨[], (List.range p).reverse, by simp, ?_, by simp⟩
      intro q; simp; omega
    · obtain ⟨hi, lo, h1, h2, h3⟩ := ih (by omega)
      refine ⟨n :: hi, lo, by simp [h1], ?_, h3⟩
      intro q
      rw [List.mem_cons, h2]
      omega

theorem order_split (c : Cfg) (p : Nat) (h : p < c.n) : ∃ hi lo, c.order = hi ++ p :: lo ∧
    (∀ q, q ∈ hi ↔ p < q ∧ q < c.n) ∧ (∀ q, q ∈ lo ↔ q < p) := range_split c.n p h

theorem life_lt (c : Cfg) : c.life < c.n := by have := c.hcm1; have := c.hcm2; omega
theorem shut_lt (c : Cfg) : c.shut < c.n := by have := c.hcm1; have := c.hcm2; simp only [Cfg.shut]; omega
theorem cm_lt (c : Cfg) : c.cm < c.n := by have := c.hcm2; omega
theorem starter_lt (c : Cfg) : c.starter < c.n := by have := c.hcm2; simp only [Cfg.starter]; omega
theorem cm_ne_life (c : Cfg) : c.cm ≠ c.life := by have := c.hcm1; omega
theorem shut_ne_life (c : Cfg) : c.shut ≠ c.life := by simp only [Cfg.shut]; omega
theorem cm_ne_shut (c : Cfg) : c.cm ≠ c.shut := by have := c.hcm1; simp only [Cfg.shut]; omega
theorem life_ne_fgn (c : Cfg) : c.life ≠ c.fgn := by have := c.hf1; omega
theorem cm_ne_fgn (c : Cfg) : c.cm ≠ c.fgn := Ne.symm c.hf3
theorem starter_ne_fgn (c : Cfg) : c.starter ≠ c.fgn := by have := c.hf2; simp only [Cfg.starter]; omega
theorem fgn_lt (c : Cfg) : c.fgn < c.n := by have := c.hf2; omega
theorem starter_ne_life (c : Cfg) : c.starter ≠ c.life := by
  have := c.hcm1; have := c.hcm2; simp only [Cfg.starter]; omega
theorem starter_ne_cm (c : Cfg) : c.starter ≠ c.cm := by
  have := c.hcm1; have := c.hcm2; simp only [Cfg.starter]; omega

theorem mem_core (c : Cfg) (p : Nat) (x : Sub) : x ∈ core c p ↔ ∃ k, k < c.cnt p ∧ x = .plug p k := by
  simp only [core, List.mem_map, List.mem_range]
  constructor
  · rintro ⟨k, a, b⟩; exact ⟨k, a, b.symm⟩
  · rintro ⟨k, a, b⟩; exact ⟨k, a, b.symm⟩

theorem core_cm (c : Cfg) : core c c.cm ≠ [] := by
  intro h
  have : Sub.plug c.cm 0 ∈ core c c.cm := (mem_core c c.cm _).mpr ⟨0, c.hcnt, rfl⟩
  rw [h] at this; cases this

theorem core_life (c : Cfg) : core c c.life = [.plug c.life 0, .plug c.life 1, .plug c.life 2] := by
  simp [core, c.hlife, List.range_succ]

theorem core_np (c : Cfg) (p : Nat) (x : Sub) (h : x ∈ core c p) : np x = false := by
  obtain ⟨k, _, rfl⟩ := (mem_core c p x).mp h
  rfl

theorem length_one {l : List Nat} {a b : Nat} (h : l.length = 1) (ha : a ∈ l) (hb : b ∈ l) : b = a := by
  match l, h with
  | [x], _ => simp at ha hb; rw [ha, hb]

theorem one_length {l : List Nat} {a : Nat} (hn : l.Nodup) (ha : a ∈ l) (h : ∀ b, b ∈ l → b = a) : l.length = 1 := by
  match l with
  | [] => cases ha
  | [x] => rfl
  | x :: y :: l =>
    have h1 := h x (by simp)
    have h2 := h y (by simp)
    subst h1
    rw [h2] at hn
    simp at hn

/-- only the lifetime plugin is being deactivated -/
theorem ready_iff (c : Cfg) (s : State) (h : s.deact c.life = true) :
    ready c s = true ↔ ∀ p, p < c.n → s.deact p = true → p = c.life := by
  simp only [ready, decide_eq_true_eq]
  have hl : c.life ∈ c.order.filter s.deact := List.mem_filter.mpr ⟨(mem_order c _).mpr (life_lt c), h⟩
  constructor
  · intro h1 p hp hd
    exact length_one h1 hl (List.mem_filter.mpr ⟨(mem_order c _).mpr hp, hd⟩)
  · intro h1
    refine one_length ((order_nodup c).filter _) hl ?_
    intro b hb
    have := List.mem_filter.mp hb
    exact h1 b ((mem_order c _).mp this.1) this.2

/-- before the deactivation of the plugins -/
structure A (c : Cfg) (s : State) (fl : Option Sub) : Prop where
  base : SBase c s fl
  st : s.st = .operational ∨ s.st = .shuttingDown
  rs : s.react c.shut = true
  rl : s.react c.life = true
  rb : ∀ p, p < c.life → s.react p = false
  act : (∀ p, p < c.n → p ≠ c.fgn → s.active p = true) ∧ (s.active c.fgn = false → s.own c.fgn = []) ∧ s.deact c.fgn = false
  ln : s.lifeNull = false
  cor : ∀ p x, p < c.n → p ≠ c.fgn → x ∈ core c p → x ∈ s.own p ∧ x ∉ s.uns
  ol : s.own c.life = core c c.life
  oc : s.own c.cm = core c c.cm
  km : ∀ x a, x ∈ s.mapping → mapOf x = some a → a = 0 ∨ a ∈ s.kids
  sm : ∀ x, x ∈ s.mapping → mapOf x = some 0 → x ∉ s.uns
  sr : s.selfRec = true
  ask : s.asked ≠ [] → ∃ x, x ∈ s.mapping ∧ mapOf x = some 0
  kn : s.kids.Nodup
  kz : 0 ∉ s.kids
  cv : s.react c.cm = false → s.kids = [] ∧ s.st = .shuttingDown
  ca : ∀ a, a ∈ s.conf → a ∈ s.asked
  nu : ∀ p k, Sub.plug p k ∈ s.uns → p = c.fgn
  pp : hInt c ∈ s.points
  rp : ∀ p k, .removed (.plug p k) ∈ s.log → p = c.fgn

/-- while the plugins are deactivated; `done`: those that already have been -/
structure DP (c : Cfg) (s : State) (fl : Option Sub) (done : Nat → Prop) : Prop where
  base : SBase c s fl
  st : s.st = .shuttingDown
  kd : s.kids = []
  rl : s.react c.life = true
  ro : ∀ p, p < c.n → p ≠ c.life → p ≠ c.shut → s.react p = false
  ln : s.lifeNull = false
  al : s.active c.life = true
  ol : s.own c.life = core c c.life
  olu : ∀ x, x ∈ core c c.life → x ∉ s.uns
  oc : s.own c.cm = core c c.cm
  nd : ∀ p, p < c.n → ¬ done p → s.active p = true ∨ (p = c.fgn ∧ s.active p = false ∧ s.own p = [] ∧ s.deact p = false)
  dn : ∀ p, p < c.n → p ≠ c.life → done p → s.deact p = s.active p ∧ (s.active p = true → s.own p ≠ []) ∧
    (s.active p = false → s.own p = []) ∧ (p ≠ c.cm → ∀ x, x ∈ s.own p → x ∈ s.uns)
  dlf : done c.life → s.deact c.life = true
  cmc : (s.mapping ≠ [] ∧ s.selfRec = true ∧ ∀ x, x ∈ core c c.cm → x ∉ s.uns) ∨
    (s.mapping = [] ∧ s.selfRec = false ∧ (done c.cm → ∀ x, x ∈ s.own c.cm → x ∈ s.uns)) ∨
    (s.mapping = [] ∧ s.selfRec = true ∧ ¬ done c.cm)
  km : ∀ x a, x ∈ s.mapping → mapOf x = some a → a = 0

/-- the plugins have been deactivated. `p0`: the plugin that has just lost its last subscription, but still has its pointer to
the actor -/
structure B (c : Cfg) (s : State) (fl : Option Sub) (p0 : Option Nat) : Prop where
  base : SBase c s fl
  st : s.st = .shuttingDown
  kd : s.kids = []
  rl : s.react c.life = true
  ro : ∀ p, p < c.n → p ≠ c.life → s.react p = false
  al : s.active c.life = true
  dlf : s.deact c.life = true
  ne : s.own c.life ≠ []
  dn : ∀ p, p < c.n → p ≠ c.life → p0 ≠ some p → s.deact p = s.active p ∧ (s.active p = true → s.own p ≠ []) ∧
    (s.active p = false → s.own p = [])
  d0 : ∀ p, p0 = some p → s.deact p = false ∧ s.own p = [] ∧ s.active p = true ∧ p ≠ c.life ∧ p < c.n
  qs : ∀ p, p < c.n → p ≠ c.life → p ≠ c.cm → ∀ x, x ∈ s.own p → x ∈ s.uns
  pts : ∀ x, x ∈ s.points → np x = true ∧ x ∈ s.uns
  cmc : (s.mapping ≠ [] ∧ s.selfRec = true ∧ s.own c.cm = core c c.cm ∧ ∀ x, x ∈ core c c.cm → x ∉ s.uns) ∨
    (s.mapping = [] ∧ s.selfRec = false ∧ ∀ x, x ∈ s.own c.cm → x ∈ s.uns)
  km : ∀ x a, x ∈ s.mapping → mapOf x = some a → a = 0
  lf : (s.own c.life = core c c.life ∧ s.lifeNull = false ∧ ∀ x, x ∈ s.own c.life → x ∉ s.uns) ∨
    (s.points = [] ∧ ∃ q, s.queue = q ++ (s.own c.life).reverse ∧ (∀ x, x ∈ q → owner c x ≠ some c.life) ∧
      s.own c.life <+: core c c.life ∧ (q ≠ [] → s.own c.life = core c c.life))
  ln : s.lifeNull = true → ∀ p, p < c.n → p ≠ c.life → p0 ≠ some p → s.active p = false

/-- the lifetime plugin is deactivated when only it is left -/
def K (c : Cfg) (s : State) : Prop :=
  (∀ x, x ∈ s.own c.life → x ∉ s.uns) → s.points ≠ [] ∨ ∃ p, p < c.n ∧ p ≠ c.life ∧ s.deact p = true

/-- one round of `deactivate_plugins` -/
def deact1 (c : Cfg) (cont : State → Except Err State) (p : Nat) (s : State) : Except Err State :=
  if s.active p then
    let s1 := { s with deact := upd s.deact p true }
    if p = c.life then .ok s1 else if p = c.cm then cmDeactivate c cont s1 else baseDeactivate p s1
  else .ok s

theorem deactAll_cons (c : Cfg) (cont : State → Except Err State) (p : Nat) (ps : List Nat) (s : State) :
    deactAll c cont (p :: ps) s = match deact1 c cont p s with
      | .error e => .error e
      | .ok s1 => deactAll c cont ps s1 := by
  simp only [deactAll, deact1]
  by_cases h : s.active p = true
  · rw [if_pos h, if_pos h]
    by_cases h1 : p = c.life
    · rw [if_pos h1, if_pos h1]
    · rw [if_neg h1, if_neg h1]
      generalize (if p = c.cm then cmDeactivate c cont { s with deact := upd s.deact p true }
        else baseDeactivate p { s with deact := upd s.deact p true }) = r
      cases r <;> rfl
  · rw [if_neg h, if_neg h]

theorem deactAll_append (c : Cfg) (cont : State → Except Err State) (l1 l2 : List Nat) (s : State) :
    deactAll c cont (l1 ++ l2) s = match deactAll c cont l1 s with
      | .error e => .error e
      | .ok s1 => deactAll c cont l2 s1 := by
  induction l1 generalizing s with
  | nil => rfl
  | cons p l1 ih =>
    rw [List.cons_append, deactAll_cons, deactAll_cons]
    cases deact1 c cont p s with
    | error e => rfl
    | ok s1 => exact ih s1

/-- what stays the same while the plugins are deactivated -/
def Same (s s' : State) : Prop :=
  s'.own = s.own ∧ s'.mapping = s.mapping ∧ s'.points = s.points ∧ s'.log = s.log ∧ s'.selfRec = s.selfRec ∧
    s'.conf = s.conf ∧ s'.asked = s.asked ∧ s'.st = s.st

theorem Same.refl (s : State) : Same s s := ⟨rfl, rfl, rfl, rfl, rfl, rfl, rfl, rfl⟩
theorem Same.trans {a b d : State} (h : Same a b) (h' : Same b d) : Same a d := by
  obtain ⟨h1, h2, h3, h4, h5, h6, h7, h8⟩ := h
  obtain ⟨g1, g2, g3, g4, g5, g6, g7, g8⟩ := h'
  exact ⟨g1.trans h1, g2.trans h2, g3.trans h3, g4.trans h4, g5.trans h5, g6.trans h6, g7.trans h7, g8.trans h8⟩

theorem owner_of_core {c : Cfg} {p : Nat} {x : Sub} (h : x ∈ core c p) : owner c x = some p := by
  obtain ⟨k, _, rfl⟩ := (mem_core c p x).mp h
  rfl

/-- a plugin that does not wait for anything is deactivated -/
theorem deact1_base {c : Cfg} {s : State} {fl : Option Sub} {done : Nat → Prop} (h : DP c s fl done) {p : Nat}
    (hp : p < c.n) (hl : p ≠ c.life) (hc : p = c.cm → s.mapping = [] ∧ s.selfRec = false) (hact : s.active p = true) :
    ∃ s', baseDeactivate p { s with deact := upd s.deact p true } = .ok s' ∧ DP c s' fl (fun q => done q ∨ q = p) ∧
      Same s s' ∧ (p ≠ c.shut → s'.react c.shut = s.react c.shut) := by
  simp only [baseDeactivate]
  rw [if_pos hact]
  by_cases ho : s.own p = []
  · rw [if_pos ho]
    have hpc : p ≠ c.cm := by
      rintro rfl
      rw [h.oc] at ho
      exact core_cm c ho
    refine ⟨_, rfl, ?_, ⟨rfl, rfl, rfl, rfl, rfl, rfl, rfl, rfl⟩, ?_⟩
    · refine ⟨h.base, h.st, h.kd, ?_, ?_, h.ln, ?_, h.ol, h.olu, h.oc, ?_, ?_, ?_, ?_, h.km⟩
      · exact (upd_ne s.react false (Ne.symm hl)).trans h.rl
      · intro q hq h1 h2
        by_cases e : q = p
        · rw [e]; exact upd_same s.react p false
        · exact (upd_ne s.react false e).trans (h.ro q hq h1 h2)
      · exact (upd_ne s.active false (Ne.symm hl)).trans h.al
      · intro q hq hd
        have h1 : ¬ done q := fun x => hd (Or.inl x)
        have h2 : q ≠ p := fun x => hd (Or.inr x)
        rcases h.nd q hq h1 with g | ⟨g1, g2, g3, g4⟩
        · exact Or.inl ((upd_ne s.active false h2).trans g)
        · exact Or.inr ⟨g1, (upd_ne s.active false h2).trans g2, g3, by simp [upd, h2, g4]⟩
      · intro q hq h1 hd
        by_cases e : q = p
        · subst e
          refine ⟨?_, ?_, fun _ => ho, fun _ x hx => ?_⟩
          · simp [upd]
          · simp [upd]
          · rw [show s.own q = [] from ho] at hx; cases hx
        · have h2 : done q := hd.resolve_right e
          obtain ⟨a, b, d, f⟩ := h.dn q hq h1 h2
          refine ⟨?_, ?_, ?_, f⟩
          · simp [upd, e, a]
          · simpa [upd, e] using b
          · simpa [upd, e] using d
      · intro hd
        have h2 : done c.life := hd.resolve_right (Ne.symm hl)
        simp [upd, Ne.symm hl, h.dlf h2]
      · rcases h.cmc with q | q | q
        · exact Or.inl q
        · exact Or.inr (Or.inl ⟨q.1, q.2.1, fun hd => q.2.2 (hd.resolve_right (Ne.symm hpc))⟩)
        · exact Or.inr (Or.inr ⟨q.1, q.2.1, fun hd => q.2.2 (hd.resolve_right (Ne.symm hpc))⟩)
    · intro hs
      exact upd_ne s.react false (Ne.symm hs)
  · rw [if_neg ho]
    rw [if_neg (by rw [h.ln]; simp)]
    obtain ⟨l', U, e, h1, h2, h3, h4⟩ := markAll_spec (s.own p).reverse { s with deact := upd s.deact p true }
    rw [e]
    refine ⟨_, rfl, ?_, ⟨rfl, rfl, rfl, rfl, rfl, rfl, rfl, rfl⟩, fun _ => rfl⟩
    have hnot : ∀ q x, q ≠ p → x ∈ core c q → x ∉ s.uns → x ∉ U := by
      intro q x hq hx hu hU
      rcases (h1 x).mp hU with hU | hU
      · exact hu hU
      · have := h.base.ow p x (by simpa using hU)
        rw [owner_of_core hx] at this
        exact hq (Option.some.inj this)
    refine ⟨?_, h.st, h.kd, h.rl, h.ro, h.ln, h.al, h.ol, ?_, h.oc, ?_, ?_, ?_, ?_, h.km⟩
    · refine h.base.mark (l := (s.own p).reverse) (fun x hx => Or.inl ⟨p, by simpa using hx⟩) ?_ h1 h2 h3
      intro x a hx ha
      have := h.base.ow p x (by simpa using hx)
      rw [np_owner (np_of_map (by rw [ha]; rfl))] at this; cases this
    · intro x hx
      exact hnot c.life x (Ne.symm hl) hx (h.olu x hx)
    · intro q hq hd
      have h2 : q ≠ p := fun x => hd (Or.inr x)
      rcases h.nd q hq (fun x => hd (Or.inl x)) with g | ⟨g1, g2, g3, g4⟩
      · exact Or.inl g
      · exact Or.inr ⟨g1, g2, g3, (upd_ne s.deact true h2).trans g4⟩
    · intro q hq h5 hd
      by_cases e : q = p
      · subst e
        refine ⟨by rw [show s.active q = true from hact]; simp [upd], fun _ => ho, ?_, ?_⟩
        · intro hf; rw [show s.active q = true from hact] at hf; cases hf
        · intro _ x hx
          exact (h1 x).mpr (Or.inr (by simpa using hx))
      · have h6 : done q := hd.resolve_right e
        obtain ⟨a, b, d, f⟩ := h.dn q hq h5 h6
        exact ⟨by simp [upd, e, a], b, d, fun h7 x hx => (h1 x).mpr (Or.inl (f h7 x hx))⟩
    · intro hd
      simp only [upd]
      rw [if_neg (Ne.symm hl)]
      exact h.dlf (hd.resolve_right (Ne.symm hl))
    · by_cases e : p = c.cm
      · obtain ⟨g1, g2⟩ := hc e
        refine Or.inr (Or.inl ⟨g1, g2, fun _ x hx => (h1 x).mpr (Or.inr ?_)⟩)
        rw [e]; simpa using hx
      · rcases h.cmc with q | q | q
        · exact Or.inl ⟨q.1, q.2.1, fun x hx => hnot c.cm x (Ne.symm e) hx (q.2.2 x hx)⟩
        · refine Or.inr (Or.inl ⟨q.1, q.2.1, fun hd x hx => (h1 x).mpr (Or.inl ?_)⟩)
          exact q.2.2 (hd.resolve_right (Ne.symm e)) x hx
        · exact Or.inr (Or.inr ⟨q.1, q.2.1, fun hd => q.2.2 (hd.resolve_right (Ne.symm e))⟩)

theorem deact1_DP {c : Cfg} {s : State} {fl : Option Sub} {done : Nat → Prop} (h : DP c s fl done) {p : Nat}
    (cont : State → Except Err State) (hp : p < c.n) (hc : p ≠ c.cm ∨ s.mapping ≠ [] ∨ s.selfRec = false) :
    ∃ s', deact1 c cont p s = .ok s' ∧ DP c s' fl (fun q => done q ∨ q = p) ∧
      Same s s' ∧ (p ≠ c.shut → s'.react c.shut = s.react c.shut) := by
  by_cases hact : s.active p = true
  · simp only [deact1]
    rw [if_pos hact]
    by_cases hl : p = c.life
    · rw [if_pos hl]
      subst hl
      refine ⟨_, rfl, ?_, ⟨rfl, rfl, rfl, rfl, rfl, rfl, rfl, rfl⟩, fun _ => rfl⟩
      refine ⟨h.base, h.st, h.kd, h.rl, h.ro, h.ln, h.al, h.ol, h.olu, h.oc, ?_, ?_, ?_, ?_, h.km⟩
      · intro q hq hd
        have h2 : q ≠ _ := fun x => hd (Or.inr x)
        rcases h.nd q hq (fun x => hd (Or.inl x)) with g | ⟨g1, g2, g3, g4⟩
        · exact Or.inl g
        · exact Or.inr ⟨g1, g2, g3, (upd_ne s.deact true h2).trans g4⟩
      · intro q hq h1 hd
        have := h.dn q hq h1 (hd.resolve_right h1)
        simpa [upd, h1] using this
      · intro _; exact upd_same _ _ _
      · have hne := cm_ne_life c
        rcases h.cmc with q | q | q
        · exact Or.inl q
        · exact Or.inr (Or.inl ⟨q.1, q.2.1, fun hd => q.2.2 (hd.resolve_right hne)⟩)
        · exact Or.inr (Or.inr ⟨q.1, q.2.1, fun hd => q.2.2 (hd.resolve_right hne)⟩)
    · rw [if_neg hl]
      by_cases hpc : p = c.cm
      · rw [if_pos hpc]
        subst hpc
        simp only [cmDeactivate]
        by_cases hm : s.mapping = []
        · rw [if_pos hm]
          have hs : s.selfRec = false := by
            rcases hc with q | q | q
            · exact absurd rfl q
            · exact absurd hm q
            · exact q
          have hact0 : actors { s with deact := upd s.deact c.cm true } = 0 := by
            simp [actors, h.kd, hs]
          rw [hact0, if_neg (by decide)]
          exact deact1_base h hp hl (fun _ => ⟨hm, hs⟩) hact
        · rw [if_neg hm]
          refine ⟨_, rfl, ?_, ⟨rfl, rfl, rfl, rfl, rfl, rfl, rfl, rfl⟩, fun _ => rfl⟩
          refine ⟨h.base, h.st, h.kd, h.rl, h.ro, h.ln, h.al, h.ol, h.olu, h.oc, ?_, ?_, ?_, ?_, h.km⟩
          · intro q hq hd
            have h2 : q ≠ _ := fun x => hd (Or.inr x)
            rcases h.nd q hq (fun x => hd (Or.inl x)) with g | ⟨g1, g2, g3, g4⟩
            · exact Or.inl g
            · exact Or.inr ⟨g1, g2, g3, (upd_ne s.deact true h2).trans g4⟩
          · intro q hq h1 hd
            by_cases e : q = c.cm
            · subst e
              refine ⟨by rw [show s.active c.cm = true from hact]; exact upd_same _ _ _, fun _ => ?_, ?_, fun x => absurd rfl x⟩
              · rw [show s.own c.cm = core c c.cm from h.oc]; exact core_cm c
              · intro hf; rw [show s.active c.cm = true from hact] at hf; cases hf
            · have := h.dn q hq h1 (hd.resolve_right e)
              simpa [upd, e] using this
          · intro hd
            have := h.dlf (hd.resolve_right (Ne.symm (cm_ne_life c)))
            simpa [upd, Ne.symm (cm_ne_life c)] using this
          · rcases h.cmc with q | q | q
            · exact Or.inl q
            · exact absurd q.1 hm
            · exact absurd q.1 hm
      · rw [if_neg hpc]
        exact deact1_base h hp hl (fun e => absurd e hpc) hact
  · simp only [deact1]
    rw [if_neg hact]
    by_cases hd : done p
    case neg =>
      obtain ⟨g1, g2, g3, g4⟩ := (h.nd p hp hd).resolve_left hact
      have hl : p ≠ c.life := by rw [g1]; exact Ne.symm (life_ne_fgn c)
      have hcm : p ≠ c.cm := by rw [g1]; exact c.hf3
      refine ⟨s, rfl, ?_, Same.refl s, fun _ => rfl⟩
      refine ⟨h.base, h.st, h.kd, h.rl, h.ro, h.ln, h.al, h.ol, h.olu, h.oc, fun q hq hn => h.nd q hq (fun x => hn (Or.inl x)), ?_, ?_,
        ?_, h.km⟩
      · intro q hq h1 hdq
        rcases hdq with x | x
        · exact h.dn q hq h1 x
        · subst x
          refine ⟨by rw [g4, g2], fun z => absurd z hact, fun _ => g3, fun _ x hx => ?_⟩
          rw [g3] at hx; cases hx
      · exact fun z => h.dlf (z.resolve_right (Ne.symm hl))
      · rcases h.cmc with q | q | q
        · exact Or.inl q
        · exact Or.inr (Or.inl ⟨q.1, q.2.1, fun z => q.2.2 (z.resolve_right (Ne.symm hcm))⟩)
        · exact Or.inr (Or.inr ⟨q.1, q.2.1, fun z => q.2.2 (z.resolve_right (Ne.symm hcm))⟩)
    have hiff : ∀ q, (done q ∨ q = p) ↔ done q := by
      intro q
      constructor
      · rintro (x | x)
        · exact x
        · rw [x]; exact hd
      · exact Or.inl
    have e : (fun q => done q ∨ q = p) = done := funext fun q => propext (hiff q)
    rw [e]
    exact ⟨s, rfl, h, Same.refl s, fun _ => rfl⟩

theorem deactAll_DP {c : Cfg} {fl : Option Sub} (cont : State → Except Err State) (l : List Nat) :
    ∀ {s : State} {done : Nat → Prop}, DP c s fl done → (∀ p, p ∈ l → p < c.n) →
      (c.cm ∉ l ∨ s.mapping ≠ [] ∨ s.selfRec = false) →
      ∃ s', deactAll c cont l s = .ok s' ∧ DP c s' fl (fun q => done q ∨ q ∈ l) ∧ Same s s' ∧
        (c.shut ∉ l → s'.react c.shut = s.react c.shut) := by
  induction l with
  | nil =>
    intro s done h _ _
    refine ⟨s, rfl, ?_, Same.refl s, fun _ => rfl⟩
    have e : (fun q => done q ∨ q ∈ ([] : List Nat)) = done := by funext q; simp
    rw [e]; exact h
  | cons p l ih =>
    intro s done h hl hc
    obtain ⟨s1, e1, h1, g1, r1⟩ := deact1_DP h cont (hl p (by simp))
      (by rcases hc with q | q
          · exact Or.inl (fun e => q (by simp [e]))
          · exact Or.inr q)
    obtain ⟨s2, e2, h2, g2, r2⟩ := ih h1 (fun q hq => hl q (by simp [hq]))
      (by rw [g1.2.1, g1.2.2.2.2.1]
          rcases hc with q | q
          · exact Or.inl (fun e => q (by simp [e]))
          · exact Or.inr q)
    refine ⟨s2, ?_, ?_, g1.trans g2, ?_⟩
    · rw [deactAll_cons, e1]; exact e2
    · have e : (fun q => done q ∨ q ∈ p :: l) = (fun q => (done q ∨ q = p) ∨ q ∈ l) := by
        funext q; simp [or_assoc]
      rw [e]; exact h2
    · intro hs
      rw [List.mem_cons, not_or] at hs
      rw [r2 hs.2, r1 (Ne.symm hs.1)]

/-- nothing more happens to plugins that have been deactivated -/
theorem base_nop {c : Cfg} {s : State} {fl : Option Sub} {p0 : Option Nat} (h : B c s fl p0) {p : Nat} (hp : p < c.n)
    (hl : p ≠ c.life) (h0 : p0 ≠ some p) (hc : p = c.cm → s.mapping = []) : baseDeactivate p s = .ok s := by
  simp only [baseDeactivate]
  by_cases ha : s.active p = true
  · rw [if_pos ha]
    obtain ⟨h1, h2, h3⟩ := h.dn p hp hl h0
    rw [if_neg (h2 ha)]
    have hn : s.lifeNull = false := by
      cases e : s.lifeNull
      · rfl
      · have := h.ln e p hp hl h0
        rw [ha] at this; cases this
    rw [hn, if_neg (by simp)]
    rw [markAll_nop]
    intro x hx
    have hx : x ∈ s.own p := by simpa using hx
    by_cases e : p = c.cm
    · subst e
      rcases h.cmc with q | q
      · exact absurd (hc rfl) q.1
      · exact q.2.2 x hx
    · exact h.qs p hp hl e x hx
  · rw [if_neg ha]

theorem deact1_B {c : Cfg} {s : State} {fl : Option Sub} (h : B c s fl none) {p : Nat} (hp : p < c.n)
    (cont : State → Except Err State) : deact1 c cont p s = .ok s := by
  simp only [deact1]
  by_cases ha : s.active p = true
  · rw [if_pos ha]
    have hd : s.deact p = true := by
      by_cases hl : p = c.life
      · rw [hl]; exact h.dlf
      · rw [(h.dn p hp hl (by simp)).1]; exact ha
    have e : { s with deact := upd s.deact p true } = s := by rw [upd_self _ _ _ hd]
    rw [e]
    by_cases hl : p = c.life
    · rw [if_pos hl]
    · rw [if_neg hl]
      by_cases hc : p = c.cm
      · rw [if_pos hc]
        simp only [cmDeactivate]
        by_cases hm : s.mapping = []
        · rw [if_pos hm]
          have hs : s.selfRec = false := by
            rcases h.cmc with q | q
            · exact absurd hm q.1
            · exact q.2.1
          have ha0 : actors s = 0 := by simp [actors, h.kd, hs]
          rw [ha0, if_neg (by decide)]
          have := base_nop h hp hl (by simp) (fun _ => hm)
          rw [hc] at this
          exact this
        · rw [if_neg hm]
      · rw [if_neg hc]
        exact base_nop h hp hl (by simp) (fun e => absurd e hc)
  · rw [if_neg ha]

theorem deactAll_B {c : Cfg} {s : State} {fl : Option Sub} (h : B c s fl none) (cont : State → Except Err State)
    (l : List Nat) (hl : ∀ p, p ∈ l → p < c.n) : deactAll c cont l s = .ok s := by
  induction l with
  | nil => rfl
  | cons p l ih =>
    rw [deactAll_cons, deact1_B h (hl p (by simp)) cont]
    exact ih (fun q hq => hl q (by simp [hq]))

end Verif.SupTeardown
