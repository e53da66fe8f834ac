import Verif.SupTeardown.Model
/-! # Invariants of the bookkeeping of subscriptions (C72) -/

namespace Verif.SupTeardown
open Verif

/-- the subscription exists -/
def Live (own : Nat → List Sub) (points : List Sub) (x : Sub) : Prop :=
  (∃ p, x ∈ own p) ∨ (x ∈ points ∧ np x = true)

/-- identities of subscriptions are below `n` -/
def below (n : Nat) : Sub → Prop
  | .plug _ _ => True
  | .user k => k < n
  | .anon k => k < n
  | .map _ _ k => k < n

/-- consistency of the lists of subscriptions; `fl`: the subscription the removal of which is in progress -/
structure Base (c : Cfg) (own : Nat → List Sub) (points uns queue mapping : List Sub) (next : Nat) (log : List Ev)
    (conf : List Nat) (fl : Option Sub) : Prop where
  qn : queue.Nodup
  on : ∀ p, (own p).Nodup
  pn : points.Nodup
  qu : ∀ x, x ∈ queue → x ∈ uns
  un : ∀ x, x ∈ uns → Live own points x → x ∈ queue ∨ fl = some x
  ql : ∀ x, x ∈ queue → Live own points x
  fx : ∀ x, fl = some x → x ∈ uns ∧ x ∉ queue ∧ x ∈ points ∧ np x = true
  ow : ∀ p x, x ∈ own p → owner c x = some p
  ob : ∀ p, c.n ≤ p → own p = []
  mp : ∀ x, x ∈ mapping ↔ (x ∈ points ∧ (mapOf x).isSome = true ∧ fl ≠ some x)
  mn : mapping.Nodup
  fp : ∀ x, x ∈ points → below next x
  fo : ∀ p x, x ∈ own p → below next x
  fu : ∀ x, x ∈ uns → below next x
  lg : ∀ x, .made x ∈ log → .removed x ∈ log ∨ Live own points x
  nr : .reply ∉ log
  um : ∀ x a, x ∈ uns → mapOf x = some a → a = 0 ∨ a ∈ conf
  ct : ∀ x, (Live own points x ∧ log.count (.made x) = 1 ∧ log.count (.removed x) = 0) ∨
    (¬ Live own points x ∧ log.count (.made x) = 1 ∧ log.count (.removed x) = 1 ∧ below next x) ∨
    (¬ Live own points x ∧ log.count (.made x) = 0 ∧ log.count (.removed x) = 0)

/-- a live subscription is removed -/
theorem ct_removed {own own' : Nat → List Sub} {points points' : List Sub} {next : Nat} {log : List Ev} {x : Sub}
    (h : ∀ x, (Live own points x ∧ log.count (.made x) = 1 ∧ log.count (.removed x) = 0) ∨
      (¬ Live own points x ∧ log.count (.made x) = 1 ∧ log.count (.removed x) = 1 ∧ below next x) ∨
      (¬ Live own points x ∧ log.count (.made x) = 0 ∧ log.count (.removed x) = 0))
    (hL : ∀ y, Live own' points' y ↔ Live own points y ∧ y ≠ x) (hx : Live own points x) (hb : below next x) :
    ∀ y, (Live own' points' y ∧ (Ev.removed x :: log).count (.made y) = 1 ∧ (Ev.removed x :: log).count (.removed y) = 0) ∨
      (¬ Live own' points' y ∧ (Ev.removed x :: log).count (.made y) = 1 ∧ (Ev.removed x :: log).count (.removed y) = 1 ∧ below next y) ∨
      (¬ Live own' points' y ∧ (Ev.removed x :: log).count (.made y) = 0 ∧ (Ev.removed x :: log).count (.removed y) = 0) := by
  intro y
  have e1 : (Ev.removed x :: log).count (.made y) = log.count (.made y) := by simp [List.count_cons]
  rw [e1, hL]
  by_cases e : y = x
  · subst e
    have e2 : (Ev.removed y :: log).count (.removed y) = log.count (.removed y) + 1 := by simp
    rw [e2]
    rcases h y with ⟨_, q1, q2⟩ | ⟨q, _⟩ | ⟨q, _⟩
    · exact Or.inr (Or.inl ⟨fun z => z.2 rfl, q1, by omega, hb⟩)
    · exact absurd hx q
    · exact absurd hx q
  · have e2 : (Ev.removed x :: log).count (.removed y) = log.count (.removed y) := by
      rw [List.count_cons_of_ne]
      simpa using Ne.symm e
    rw [e2]
    rcases h y with ⟨q, q1⟩ | ⟨q, q1⟩ | ⟨q, q1⟩
    · exact Or.inl ⟨⟨q, e⟩, q1⟩
    · exact Or.inr (Or.inl ⟨fun z => q z.1, q1⟩)
    · exact Or.inr (Or.inr ⟨fun z => q z.1, q1⟩)

abbrev SBase (c : Cfg) (s : State) (fl : Option Sub) : Prop :=
  Base c s.own s.points s.uns s.queue s.mapping s.next s.log s.conf fl

theorem np_of_map {x : Sub} (h : (mapOf x).isSome = true) : np x = true := by
  cases x <;> simp_all [mapOf, np]

theorem np_owner {c : Cfg} {x : Sub} (h : np x = true) : owner c x = none := by
  cases x <;> simp_all [owner, np]

theorem upd_same {α : Type} (f : Nat → α) (i : Nat) (v : α) : upd f i v i = v := by simp [upd]
theorem upd_ne {α : Type} (f : Nat → α) {i j : Nat} (v : α) (h : j ≠ i) : upd f i v j = f j := by simp [upd, h]

/-- what marking does -/
theorem markAll_spec (l : List Sub) (s : State) :
    ∃ l' U, markAll l s = { s with uns := U, queue := s.queue ++ l' } ∧
      (∀ x, x ∈ U ↔ x ∈ s.uns ∨ x ∈ l) ∧ (∀ x, x ∈ l' ↔ x ∈ l ∧ x ∉ s.uns) ∧ l'.Nodup ∧
      (l.Nodup → (∀ x, x ∈ l → x ∉ s.uns) → l' = l) := by
  induction l generalizing s with
  | nil => exact ⟨[], s.uns, by simp [markAll], by simp, by simp, by simp, by simp⟩
  | cons x l ih =>
    by_cases hx : x ∈ s.uns
    · obtain ⟨l', U, e, h1, h2, h3, h4⟩ := ih s
      refine ⟨l', U, by simp [markAll, mark, hx, e], ?_, ?_, h3, ?_⟩
      · intro y; rw [h1]; grind
      · intro y; rw [h2]; grind
      · intro _ hh; exact absurd hx (hh x (by simp))
    · obtain ⟨l', U, e, h1, h2, h3, h4⟩ := ih { s with uns := x :: s.uns, queue := s.queue ++ [x] }
      refine ⟨x :: l', U, by simp [markAll, mark, hx, e], ?_, ?_, ?_, ?_⟩
      · intro y; rw [h1]; grind
      · intro y
        have := h2 y
        grind
      · simp only [List.nodup_cons]
        refine ⟨?_, h3⟩
        intro hm
        have := (h2 x).mp hm
        simp at this
      · intro hn hh
        simp only [List.nodup_cons] at hn
        rw [h4 hn.2]
        intro y hy
        simp only [List.mem_cons, not_or]
        exact ⟨fun e => hn.1 (e ▸ hy), hh y (by simp [hy])⟩

theorem markAll_nop (l : List Sub) (s : State) (h : ∀ x, x ∈ l → x ∈ s.uns) : markAll l s = s := by
  induction l with
  | nil => rfl
  | cons x l ih =>
    have : mark x s = s := by simp [mark, h x (by simp)]
    simp only [markAll, this]
    exact ih (fun y hy => h y (by simp [hy]))

/-- marking keeps the books consistent -/
theorem Base.mark {c : Cfg} {own : Nat → List Sub} {points uns queue mapping : List Sub} {next : Nat} {log : List Ev} {conf : List Nat}
    {fl : Option Sub} (h : Base c own points uns queue mapping next log conf fl) {l l' U : List Sub}
    (hl : ∀ x, x ∈ l → Live own points x) (hc : ∀ x a, x ∈ l → mapOf x = some a → x ∈ uns ∨ a = 0 ∨ a ∈ conf) (hU : ∀ x, x ∈ U ↔ x ∈ uns ∨ x ∈ l)
    (hl' : ∀ x, x ∈ l' ↔ x ∈ l ∧ x ∉ uns) (hn : l'.Nodup) :
    Base c own points U (queue ++ l') mapping next log conf fl where
  qn := by
    rw [List.nodup_append]
    refine ⟨h.qn, hn, ?_⟩
    intro a ha b hb e
    subst e
    exact ((hl' a).mp hb).2 (h.qu a ha)
  on := h.on
  pn := h.pn
  qu := by
    intro x hx
    rw [hU]
    rcases List.mem_append.mp hx with hx | hx
    · exact Or.inl (h.qu x hx)
    · exact Or.inr ((hl' x).mp hx).1
  un := by
    intro x hx hv
    by_cases hu : x ∈ uns
    · rcases h.un x hu hv with q | q
      · exact Or.inl (by simp [q])
      · exact Or.inr q
    · have : x ∈ l := by
        rcases (hU x).mp hx with q | q
        · exact absurd q hu
        · exact q
      exact Or.inl (by simp [(hl' x).mpr ⟨this, hu⟩])
  ql := by
    intro x hx
    rcases List.mem_append.mp hx with hx | hx
    · exact h.ql x hx
    · exact hl x ((hl' x).mp hx).1
  fx := by
    intro x hx
    obtain ⟨a, b, d, e⟩ := h.fx x hx
    refine ⟨(hU x).mpr (Or.inl a), ?_, d, e⟩
    intro hm
    rcases List.mem_append.mp hm with hm | hm
    · exact b hm
    · exact ((hl' x).mp hm).2 a
  ow := h.ow
  ob := h.ob
  mp := h.mp
  mn := h.mn
  fp := h.fp
  fo := h.fo
  fu := by
    intro x hx
    rcases (hU x).mp hx with q | q
    · exact h.fu x q
    · rcases hl x q with ⟨p, hp⟩ | ⟨hp, _⟩
      · exact h.fo p x hp
      · exact h.fp x hp
  lg := h.lg
  nr := h.nr
  um := by
    intro x a hx ha
    rcases (hU x).mp hx with q | q
    · exact h.um x a q ha
    · rcases hc x a q ha with q | q
      · exact h.um x a q ha
      · exact q
  ct := h.ct

/-- the lifetime plugin drops the subscriptions of plugins from its list -/
theorem Base.filter {c : Cfg} {own : Nat → List Sub} {points uns queue mapping : List Sub} {next : Nat} {log : List Ev} {conf : List Nat}
    {fl : Option Sub} (h : Base c own points uns queue mapping next log conf fl) :
    Base c own (points.filter np) uns queue mapping next log conf fl := by
  have hL : ∀ x, Live own (points.filter np) x ↔ Live own points x := by
    intro x; simp [Live]
  refine ⟨h.qn, h.on, h.pn.filter _, h.qu, ?_, ?_, ?_, h.ow, h.ob, ?_, h.mn, ?_, h.fo, h.fu, ?_, h.nr, h.um, by simp only [hL]; exact h.ct⟩
  · intro x hx hv; exact h.un x hx ((hL x).mp hv)
  · intro x hx; exact (hL x).mpr (h.ql x hx)
  · intro x hx
    obtain ⟨a, b, d, e⟩ := h.fx x hx
    exact ⟨a, b, List.mem_filter.mpr ⟨d, e⟩, e⟩
  · intro x
    rw [h.mp]
    constructor
    · rintro ⟨a, b, d⟩; exact ⟨List.mem_filter.mpr ⟨a, np_of_map b⟩, b, d⟩
    · rintro ⟨a, b, d⟩; exact ⟨(List.mem_filter.mp a).1, b, d⟩
  · intro x hx; exact h.fp x (List.mem_filter.mp hx).1
  · intro x hx
    rcases h.lg x hx with q | q
    · exact Or.inl q
    · exact Or.inr ((hL x).mpr q)

/-- an event that is not about subscriptions -/
theorem Base.event {c : Cfg} {own : Nat → List Sub} {points uns queue mapping : List Sub} {next : Nat} {log : List Ev} {conf : List Nat}
    {fl : Option Sub} (h : Base c own points uns queue mapping next log conf fl) {e : Ev}
    (he : ∀ x, e ≠ .made x ∧ e ≠ .removed x) (hr : e ≠ .reply) : Base c own points uns queue mapping next (e :: log) conf fl :=
  ⟨h.qn, h.on, h.pn, h.qu, h.un, h.ql, h.fx, h.ow, h.ob, h.mp, h.mn, h.fp, h.fo, h.fu, by
    intro x hx
    rcases List.mem_cons.mp hx with hx | hx
    · exact absurd hx.symm (he x).1
    · rcases h.lg x hx with q | q
      · exact Or.inl (by simp [q])
      · exact Or.inr q, by simp [h.nr, hr.symm], h.um, by
    intro x
    rw [List.count_cons_of_ne (he x).1, List.count_cons_of_ne (he x).2]
    exact h.ct x⟩

/-- the front of the queue is taken and a plugin forgets this subscription -/
theorem Base.forget {c : Cfg} {own : Nat → List Sub} {points uns mapping rest : List Sub} {next : Nat} {log : List Ev} {conf : List Nat}
    {x : Sub} {p : Nat} (h : Base c own points uns (x :: rest) mapping next log conf none) (hx : x ∈ own p) :
    Base c (upd own p ((own p).erase x)) points uns rest mapping next (.removed x :: log) conf none := by
  have hq := List.nodup_cons.mp h.qn
  have ho := h.ow p x hx
  have hnp : np x = false := by
    cases e : np x
    · rfl
    · rw [np_owner e] at ho; cases ho
  have hmem : ∀ q y, y ∈ upd own p ((own p).erase x) q ↔ y ∈ own q ∧ y ≠ x := by
    intro q y
    by_cases e : q = p
    · subst e
      rw [upd_same, (h.on q).mem_erase_iff]
      grind
    · rw [upd_ne _ _ e]
      constructor
      · intro hy
        refine ⟨hy, ?_⟩
        rintro rfl
        have := h.ow q y hy
        rw [ho] at this
        exact e (Option.some.inj this).symm
      · exact fun hy => hy.1
  have hL : ∀ y, Live (upd own p ((own p).erase x)) points y ↔ Live own points y ∧ y ≠ x := by
    intro y
    simp only [Live, hmem]
    constructor
    · rintro (⟨q, a, b⟩ | ⟨a, b⟩)
      · exact ⟨Or.inl ⟨q, a⟩, b⟩
      · refine ⟨Or.inr ⟨a, b⟩, ?_⟩
        rintro rfl
        rw [hnp] at b; cases b
    · rintro ⟨⟨q, a⟩ | ⟨a, b⟩, d⟩
      · exact Or.inl ⟨q, a, d⟩
      · exact Or.inr ⟨a, b⟩
  refine ⟨hq.2, ?_, h.pn, fun y hy => h.qu y (by simp [hy]), ?_, ?_, ?_, ?_, ?_, h.mp, h.mn, h.fp, ?_, h.fu, ?_, by simp [h.nr], h.um,
    ct_removed h.ct hL (Or.inl ⟨p, hx⟩) (h.fo p x hx)⟩
  · intro q
    by_cases e : q = p
    · subst e; rw [upd_same]; exact (h.on q).erase x
    · rw [upd_ne _ _ e]; exact h.on q
  · intro y hy hv
    obtain ⟨hv, hne⟩ := (hL y).mp hv
    rcases h.un y hy hv with q | q
    · rcases List.mem_cons.mp q with q | q
      · exact absurd q hne
      · exact Or.inl q
    · exact Or.inr q
  · intro y hy
    refine (hL y).mpr ⟨h.ql y (by simp [hy]), ?_⟩
    rintro rfl
    exact hq.1 hy
  · intro y hy; cases hy
  · intro q y hy; exact h.ow q y ((hmem q y).mp hy).1
  · intro q hq'
    by_cases e : q = p
    · subst e
      have := h.ob q hq'
      rw [this] at hx; cases hx
    · rw [upd_ne _ _ e]; exact h.ob q hq'
  · intro q y hy; exact h.fo q y ((hmem q y).mp hy).1
  · intro y hy
    have hy : Ev.made y ∈ log := by simpa using hy
    by_cases e : y = x
    · subst e; exact Or.inl (by simp)
    · rcases h.lg y hy with q | q
      · exact Or.inl (by simp [q])
      · exact Or.inr ((hL y).mpr ⟨q, e⟩)

/-- the lifetime plugin forgets a subscription that is not of a plugin -/
theorem Base.forgetNp {c : Cfg} {own : Nat → List Sub} {points uns mapping queue : List Sub} {next : Nat} {log : List Ev} {conf : List Nat}
    {x : Sub} {fl : Option Sub} (h : Base c own points uns queue mapping next log conf fl) (hx : x ∈ points) (hnp : np x = true)
    (hu : x ∈ uns) (hxq : x ∉ queue) (hm : x ∉ mapping) (hfl : fl = none ∨ fl = some x) :
    Base c own (points.erase x) uns queue mapping next (.removed x :: log) conf none := by
  have hno : ∀ p, x ∉ own p := by
    intro p hp
    have := h.ow p x hp
    rw [np_owner hnp] at this; cases this
  have hmem : ∀ y, y ∈ points.erase x ↔ y ≠ x ∧ y ∈ points := fun y => h.pn.mem_erase_iff
  have hL : ∀ y, Live own (points.erase x) y ↔ Live own points y ∧ y ≠ x := by
    intro y
    simp only [Live, hmem]
    constructor
    · rintro (⟨q, a⟩ | ⟨⟨a, b⟩, d⟩)
      · refine ⟨Or.inl ⟨q, a⟩, ?_⟩
        rintro rfl
        exact hno q a
      · exact ⟨Or.inr ⟨b, d⟩, a⟩
    · rintro ⟨⟨q, a⟩ | ⟨a, b⟩, d⟩
      · exact Or.inl ⟨q, a⟩
      · exact Or.inr ⟨⟨d, a⟩, b⟩
  refine ⟨h.qn, h.on, h.pn.erase x, h.qu, ?_, ?_, ?_, h.ow, h.ob, ?_, h.mn, ?_, h.fo, h.fu, ?_, by simp [h.nr], h.um,
    ct_removed h.ct hL (Or.inr ⟨hx, hnp⟩) (h.fp x hx)⟩
  · intro y hy hv
    obtain ⟨hv, hne⟩ := (hL y).mp hv
    rcases h.un y hy hv with q | q
    · exact Or.inl q
    · rcases hfl with f | f
      · rw [f] at q; cases q
      · rw [f] at q; exact absurd (Option.some.inj q).symm hne
  · intro y hy
    refine (hL y).mpr ⟨h.ql y hy, ?_⟩
    rintro rfl
    exact hxq hy
  · intro y hy; cases hy
  · intro y
    rw [h.mp, hmem]
    constructor
    · rintro ⟨a, b, d⟩
      refine ⟨⟨?_, a⟩, b, by simp⟩
      rintro rfl
      exact hm ((h.mp y).mpr ⟨a, b, d⟩)
    · rintro ⟨⟨a, b⟩, d, _⟩
      refine ⟨b, d, ?_⟩
      intro e
      rcases hfl with f | f
      · rw [f] at e; cases e
      · rw [f] at e; exact a (Option.some.inj e).symm
  · intro y hy; exact h.fp y ((hmem y).mp hy).2
  · intro y hy
    have hy : Ev.made y ∈ log := by simpa using hy
    by_cases e : y = x
    · subst e; exact Or.inl (by simp)
    · rcases h.lg y hy with q | q
      · exact Or.inl (by simp [q])
      · exact Or.inr ((hL y).mpr ⟨q, e⟩)

/-- the removal of a subscription that is not of a plugin begins: it is taken from the queue and from the mapping -/
theorem Base.unmap {c : Cfg} {own : Nat → List Sub} {points uns mapping rest : List Sub} {next : Nat} {log : List Ev} {conf : List Nat}
    {x : Sub} (h : Base c own points uns (x :: rest) mapping next log conf none) (hx : x ∈ points)
    (hm : np x = true) : Base c own points uns rest (mapping.erase x) next log conf (some x) := by
  have hq := List.nodup_cons.mp h.qn
  refine ⟨hq.2, h.on, h.pn, fun y hy => h.qu y (by simp [hy]), ?_, fun y hy => h.ql y (by simp [hy]), ?_, h.ow, h.ob, ?_,
    h.mn.erase x, h.fp, h.fo, h.fu, h.lg, h.nr, h.um, h.ct⟩
  · intro y hy hv
    rcases h.un y hy hv with q | q
    · rcases List.mem_cons.mp q with q | q
      · exact Or.inr (by rw [q])
      · exact Or.inl q
    · cases q
  · intro y hy
    obtain rfl := Option.some.inj hy
    exact ⟨h.qu _ (by simp), hq.1, hx, hm⟩
  · intro y
    rw [h.mn.mem_erase_iff, h.mp]
    constructor
    · rintro ⟨a, b, d, _⟩
      exact ⟨b, d, fun e => a (Option.some.inj e).symm⟩
    · rintro ⟨a, b, d⟩
      exact ⟨fun e => d (by rw [e]), a, b, by simp⟩

theorem below_succ {n : Nat} {x : Sub} (h : below n x) : below (n + 1) x := by
  cases x <;> simp_all [below] <;> omega

/-- a subscription is made -/
theorem Base.add {c : Cfg} {own own' : Nat → List Sub} {points uns queue mapping mapping' : List Sub} {next : Nat}
    {log : List Ev} {conf : List Nat} {fl : Option Sub} {x : Sub} (h : Base c own points uns queue mapping next log conf fl)
    (hb : ¬ below next x) (hb' : below (next + 1) x)
    (hown : ∀ p y, y ∈ own' p ↔ y ∈ own p ∨ (y = x ∧ owner c x = some p)) (hon : ∀ p, (own' p).Nodup)
    (hob : ∀ p, c.n ≤ p → own' p = [])
    (hmap : ∀ y, y ∈ mapping' ↔ y ∈ mapping ∨ (y = x ∧ (mapOf x).isSome = true)) (hmn : mapping'.Nodup) :
    Base c own' (points ++ [x]) uns queue mapping' (next + 1) (.made x :: log) conf fl := by
  have hxu : x ∉ uns := fun e => hb (h.fu x e)
  have hL : ∀ y, y ≠ x → (Live own' (points ++ [x]) y ↔ Live own points y) := by
    intro y hy
    simp [Live, hown, hy]
  have hLx : Live own' (points ++ [x]) x := by
    cases e : owner c x with
    | none =>
      refine Or.inr ⟨by simp, ?_⟩
      cases x <;> simp_all [owner, np]
    | some p => exact Or.inl ⟨p, (hown p x).mpr (Or.inr ⟨rfl, e⟩)⟩
  have hLm : ∀ y, Live own points y → Live own' (points ++ [x]) y := by
    intro y hy
    by_cases e : y = x
    · rw [e]; exact hLx
    · exact (hL y e).mpr hy
  refine ⟨h.qn, hon, ?_, h.qu, ?_, fun y hy => hLm y (h.ql y hy), ?_, ?_, hob, ?_, hmn, ?_, ?_,
    fun y hy => below_succ (h.fu y hy), ?_, by simp [h.nr], h.um, ?_⟩
  · rw [List.nodup_append]
    refine ⟨h.pn, by simp, ?_⟩
    intro a ha b hb2 e
    have : b = x := by simpa using hb2
    exact hb (h.fp x (by rw [← this, ← e]; exact ha))
  · intro y hy hv
    have : y ≠ x := fun e => hxu (e ▸ hy)
    exact h.un y hy ((hL y this).mp hv)
  · intro y hy
    obtain ⟨a, b, d, e⟩ := h.fx y hy
    exact ⟨a, b, by simp [d], e⟩
  · intro p y hy
    rcases (hown p y).mp hy with q | ⟨q, r⟩
    · exact h.ow p y q
    · rw [q]; exact r
  · intro y
    rw [hmap, h.mp]
    by_cases e : y = x
    · subst e
      constructor
      · rintro (q | q)
        · exact ⟨by simp, q.2.1, q.2.2⟩
        · refine ⟨by simp, q.2, ?_⟩
          intro hf
          exact hb (h.fp y (h.fx y hf).2.2.1)
      · rintro ⟨_, q, _⟩
        exact Or.inr ⟨rfl, q⟩
    · simp [e]
  · intro y hy
    rcases List.mem_append.mp hy with q | q
    · exact below_succ (h.fp y q)
    · have : y = x := by simpa using q
      rw [this]; exact hb'
  · intro p y hy
    rcases (hown p y).mp hy with q | ⟨q, _⟩
    · exact below_succ (h.fo p y q)
    · rw [q]; exact hb'
  · intro y hy
    rcases List.mem_cons.mp hy with q | q
    · have : y = x := by simpa using q
      rw [this]; exact Or.inr hLx
    · rcases h.lg y q with r | r
      · exact Or.inl (by simp [r])
      · exact Or.inr (hLm y r)
  · intro y
    have e2 : (Ev.made x :: log).count (.removed y) = log.count (.removed y) := by simp [List.count_cons]
    rw [e2]
    by_cases e : y = x
    · subst e
      have hnl : ¬ Live own points y := by
        rintro (⟨p, hp⟩ | ⟨hp, _⟩)
        · exact hb (h.fo p y hp)
        · exact hb (h.fp y hp)
      have e1 : (Ev.made y :: log).count (.made y) = log.count (.made y) + 1 := by simp
      rw [e1]
      rcases h.ct y with ⟨q, _⟩ | ⟨_, _, _, q⟩ | ⟨_, q1, q2⟩
      · exact absurd q hnl
      · exact absurd q hb
      · exact Or.inl ⟨hLx, by omega, q2⟩
    · have e1 : (Ev.made x :: log).count (.made y) = log.count (.made y) := by
        rw [List.count_cons_of_ne]
        simpa using Ne.symm e
      rw [e1, hL y e]
      rcases h.ct y with q | ⟨q, q1, q2, q3⟩ | q
      · exact Or.inl q
      · exact Or.inr (Or.inl ⟨q, q1, q2, below_succ q3⟩)
      · exact Or.inr (Or.inr q)

end Verif.SupTeardown
