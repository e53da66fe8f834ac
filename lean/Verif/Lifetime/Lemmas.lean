import Verif.Lifetime.Model

/-!
# Facts about the single functions
-/

namespace Verif.Lifetime
open Verif

theorem upd_self {α : Type} (f : Nat → α) (i : Nat) (v : α) : upd f i v i = v := by simp [upd]
theorem upd_ne {α : Type} (f : Nat → α) {i j : Nat} (v : α) (h : j ≠ i) : upd f i v j = f j := by simp [upd, h]

/-- everything but `uns` and `queue` -/
structure Frame (s s' : State) : Prop where
  st : s'.st = s.st
  own : s'.own = s.own
  points : s'.points = s.points
  active : s'.active = s.active
  deact : s'.deact = s.deact
  react : s'.react = s.react
  lifeNull : s'.lifeNull = s.lifeNull
  live : s'.live = s.live
  next : s'.next = s.next
  log : s'.log = s.log

theorem Frame.refl (s : State) : Frame s s := ⟨rfl, rfl, rfl, rfl, rfl, rfl, rfl, rfl, rfl, rfl⟩
theorem Frame.trans {a b c : State} (h1 : Frame a b) (h2 : Frame b c) : Frame a c :=
  ⟨h2.st.trans h1.st, h2.own.trans h1.own, h2.points.trans h1.points, h2.active.trans h1.active, h2.deact.trans h1.deact,
   h2.react.trans h1.react, h2.lifeNull.trans h1.lifeNull, h2.live.trans h1.live, h2.next.trans h1.next, h2.log.trans h1.log⟩

theorem frame_mark (x : Sub) (s : State) : Frame s (mark x s) := by
  simp only [mark]
  by_cases h : x ∈ s.uns
  · rw [if_pos h]; exact .refl s
  · rw [if_neg h]; exact ⟨rfl, rfl, rfl, rfl, rfl, rfl, rfl, rfl, rfl, rfl⟩

theorem frame_markAll : ∀ (l : List Sub) (s : State), Frame s (markAll l s) := by
  intro l
  induction l with
  | nil => intro s; exact .refl s
  | cons x l ih => intro s; exact (frame_mark x s).trans (ih _)

theorem mem_uns_mark {x y : Sub} {s : State} : y ∈ (mark x s).uns ↔ y = x ∨ y ∈ s.uns := by
  simp only [mark]
  by_cases h : x ∈ s.uns
  · rw [if_pos h]
    constructor
    · exact .inr
    · rintro (rfl | h')
      · exact h
      · exact h'
  · rw [if_neg h]; simp

theorem mem_uns_markAll {y : Sub} : ∀ (l : List Sub) (s : State), y ∈ (markAll l s).uns ↔ y ∈ l ∨ y ∈ s.uns := by
  intro l
  induction l with
  | nil => intro s; simp [markAll]
  | cons x l ih =>
    intro s
    simp only [markAll, ih, mem_uns_mark, List.mem_cons]
    constructor
    · rintro (h | h | h)
      · exact .inl (.inr h)
      · exact .inl (.inl h)
      · exact .inr h
    · rintro ((h | h) | h)
      · exact .inr (.inl h)
      · exact .inl h
      · exact .inr (.inr h)

/-- nothing new -/
theorem markAll_idle : ∀ (l : List Sub) (s : State), (∀ x ∈ l, x ∈ s.uns) → markAll l s = s := by
  intro l
  induction l with
  | nil => intro s _; rfl
  | cons x l ih =>
    intro s h
    have : mark x s = s := by simp only [mark]; rw [if_pos (h x (by simp))]
    simp only [markAll, this]
    exact ih s (fun y hy => h y (by simp [hy]))

/-- all new -/
theorem markAll_queue : ∀ (l : List Sub) (s : State), l.Nodup → (∀ x ∈ l, x ∉ s.uns) → (markAll l s).queue = s.queue ++ l := by
  intro l
  induction l with
  | nil => intro s _ _; simp [markAll]
  | cons x l ih =>
    intro s hn h
    rw [List.nodup_cons] at hn
    have e : mark x s = { s with uns := x :: s.uns, queue := s.queue ++ [x] } := by
      simp only [mark]; rw [if_neg (h x (by simp))]
    simp only [markAll]
    rw [ih _ hn.2 ?_, e]
    · simp
    · intro y hy
      rw [mem_uns_mark]
      rintro (rfl | h')
      · exact hn.1 hy
      · exact h y (by simp [hy]) h'

/-- the queue holds exactly one message for every subscription that is being undone -/
def QOk (s : State) : Prop := s.queue.Nodup ∧ ∀ x, x ∈ s.queue ↔ x ∈ s.live ∧ x ∈ s.uns

theorem QOk.mark {s : State} {x : Sub} (h : QOk s) (hx : x ∈ s.live) : QOk (mark x s) := by
  have hl := (frame_mark x s).live
  refine ⟨?_, fun y => ?_⟩
  · simp only [Lifetime.mark]
    by_cases hu : x ∈ s.uns
    · rw [if_pos hu]; exact h.1
    · rw [if_neg hu]
      simp only [List.nodup_append, List.nodup_cons, List.not_mem_nil, not_false_eq_true, List.nodup_nil, and_self, List.mem_cons, or_false, true_and]
      refine ⟨h.1, ?_⟩
      intro a ha b hb hab
      subst hb hab
      exact hu ((h.2 _).1 ha).2
  · rw [hl, mem_uns_mark]
    simp only [Lifetime.mark]
    by_cases hu : x ∈ s.uns
    · rw [if_pos hu, h.2 y]
      constructor
      · rintro ⟨h1, h2⟩; exact ⟨h1, .inr h2⟩
      · rintro ⟨h1, rfl | h2⟩
        · exact ⟨h1, hu⟩
        · exact ⟨h1, h2⟩
    · rw [if_neg hu]
      simp only [List.mem_append, List.mem_singleton, h.2 y]
      constructor
      · rintro (⟨h1, h2⟩ | rfl)
        · exact ⟨h1, .inr h2⟩
        · exact ⟨hx, .inl rfl⟩
      · rintro ⟨h1, rfl | h2⟩
        · exact .inr rfl
        · exact .inl ⟨h1, h2⟩

theorem QOk.markAll : ∀ (l : List Sub) (s : State), QOk s → (∀ x ∈ l, x ∈ s.live) → QOk (markAll l s) := by
  intro l
  induction l with
  | nil => intro s h _; exact h
  | cons x l ih =>
    intro s h hl
    refine ih _ (h.mark (hl x (by simp))) (fun y hy => ?_)
    rw [(frame_mark x s).live]
    exact hl y (by simp [hy])

theorem QOk.of {s s' : State} (h : QOk s) (h1 : s'.queue = s.queue) (h2 : s'.live = s.live) (h3 : s'.uns = s.uns) : QOk s' := by
  unfold QOk
  rw [h1, h2, h3]
  exact h

/-- what `deactAll` does -/
structure DFacts (c : Cfg) (ps : List Nat) (s s' : State) : Prop where
  st : s'.st = s.st
  own : s'.own = s.own
  points : s'.points = s.points
  lifeNull : s'.lifeNull = s.lifeNull
  live : s'.live = s.live
  next : s'.next = s.next
  log : s'.log = s.log
  react : ∀ q, s'.react q = true → s.react q = true
  reactLife : s'.react c.life = s.react c.life
  actGone : ∀ q, q ≠ c.life → q ∈ ps → s'.active q = true → s.own q ≠ []
  actSub : ∀ q, s'.active q = true → s.active q = true
  actKeep : ∀ q, s.own q ≠ [] → s.active q = true → s'.active q = true
  actLife : s'.active c.life = s.active c.life
  deactIn : ∀ q, (q ∈ ps ∧ s.active q = true) ∨ q ∈ s.deact → s.own q ≠ [] ∨ q = c.life → q ∈ s'.deact
  deactSub : ∀ q, q ∈ s'.deact → q ∈ s.deact ∨ (q ∈ ps ∧ s.active q = true)
  deactOut : s.deact.Nodup → s'.deact.Nodup ∧ ∀ q, q ≠ c.life → q ∈ ps → s.active q = true → q ∈ s'.deact → s.own q ≠ []
  uns : ∀ x, x ∈ s'.uns ↔ x ∈ s.uns ∨ ∃ q ∈ ps, q ≠ c.life ∧ s.active q = true ∧ x ∈ s.own q
  q : (∀ q, ∀ x ∈ s.own q, x ∈ s.live) → QOk s → QOk s'

theorem DFacts.nil (c : Cfg) (s : State) : DFacts c [] s s where
  st := rfl
  own := rfl
  points := rfl
  lifeNull := rfl
  live := rfl
  next := rfl
  log := rfl
  react _ h := h
  reactLife := rfl
  actGone _ _ h := by simp at h
  actSub _ h := h
  actKeep _ _ h := h
  actLife := rfl
  deactIn q h _ := by
    rcases h with h | h
    · simp at h
    · exact h
  deactSub q h := .inl h
  deactOut h := ⟨h, fun q _ h => by simp at h⟩
  uns x := by simp
  q _ h := h

/-- `std::set::insert` -/
def ins (p : Nat) (l : List Nat) : List Nat := if p ∈ l then l else l ++ [p]

theorem mem_ins {p q : Nat} {l : List Nat} : q ∈ ins p l ↔ q = p ∨ q ∈ l := by
  simp only [ins]
  by_cases h : p ∈ l
  · rw [if_pos h]
    constructor
    · exact .inr
    · rintro (rfl | h')
      · exact h
      · exact h'
  · rw [if_neg h]; simp [or_comm]

theorem nodup_ins {p : Nat} {l : List Nat} (h : l.Nodup) : (ins p l).Nodup := by
  simp only [ins]
  by_cases hp : p ∈ l
  · rw [if_pos hp]; exact h
  · rw [if_neg hp]
    simp only [List.nodup_append, List.nodup_cons, List.not_mem_nil, not_false_eq_true, List.nodup_nil, and_self, List.mem_cons, or_false, true_and]
    refine ⟨h, ?_⟩
    intro a ha b hb hab
    subst hb hab
    exact hp ha

/-- one plugin at the head, then the others -/
theorem dfacts_skip {c : Cfg} {p : Nat} {ps : List Nat} {s s' : State} (ha : s.active p ≠ true) (h : DFacts c ps s s') :
    DFacts c (p :: ps) s s' where
  st := h.st
  own := h.own
  points := h.points
  lifeNull := h.lifeNull
  live := h.live
  next := h.next
  log := h.log
  react := h.react
  reactLife := h.reactLife
  actGone q hq hm ha' := by
    rcases List.mem_cons.1 hm with e | hm
    · rw [e] at ha'; exact absurd (h.actSub _ ha') ha
    · exact h.actGone q hq hm ha'
  actSub := h.actSub
  actKeep := h.actKeep
  actLife := h.actLife
  deactIn q hq := by
    refine h.deactIn q ?_
    rcases hq with ⟨hm, h1⟩ | h1
    · rcases List.mem_cons.1 hm with e | hm
      · rw [e] at h1; exact absurd h1 ha
      · exact .inl ⟨hm, h1⟩
    · exact .inr h1
  deactSub q hq := by
    rcases h.deactSub q hq with h1 | ⟨h1, h2⟩
    · exact .inl h1
    · exact .inr ⟨by simp [h1], h2⟩
  deactOut hn := by
    refine ⟨(h.deactOut hn).1, fun q hq hm ha' hd => ?_⟩
    rcases List.mem_cons.1 hm with e | hm
    · rw [e] at ha'; exact absurd ha' ha
    · exact (h.deactOut hn).2 q hq hm ha' hd
  uns x := by
    rw [h.uns]
    constructor
    · rintro (h1 | ⟨q, h1, h2⟩)
      · exact .inl h1
      · exact .inr ⟨q, by simp [h1], h2⟩
    · rintro (h1 | ⟨q, h1, h2, h3, h4⟩)
      · exact .inl h1
      · rcases List.mem_cons.1 h1 with e | h1
        · rw [e] at h3; exact absurd h3 ha
        · exact .inr ⟨q, h1, h2, h3, h4⟩
  q := h.q

theorem dfacts_life {c : Cfg} {ps : List Nat} {s s' : State} (ha : s.active c.life = true) (hn : c.life ∉ ps)
    (h : DFacts c ps { s with deact := ins c.life s.deact } s') : DFacts c (c.life :: ps) s s' where
  st := h.st
  own := h.own
  points := h.points
  lifeNull := h.lifeNull
  live := h.live
  next := h.next
  log := h.log
  react := h.react
  reactLife := h.reactLife
  actGone q hq hm ha' := by
    rcases List.mem_cons.1 hm with e | hm
    · exact absurd e hq
    · exact h.actGone q hq hm ha'
  actSub := h.actSub
  actKeep := h.actKeep
  actLife := h.actLife
  deactIn q hq := by
    refine h.deactIn q ?_
    simp only [mem_ins]
    rcases hq with ⟨hm, h1⟩ | h1
    · rcases List.mem_cons.1 hm with e | hm
      · exact .inr (.inl e)
      · exact .inl ⟨hm, h1⟩
    · exact .inr (.inr h1)
  deactSub q hq := by
    rcases h.deactSub q hq with h1 | ⟨h1, h2⟩
    · simp only [mem_ins] at h1
      rcases h1 with rfl | h1
      · exact .inr ⟨by simp, ha⟩
      · exact .inl h1
    · exact .inr ⟨by simp [h1], h2⟩
  deactOut hd := by
    have := h.deactOut (nodup_ins hd)
    refine ⟨this.1, fun q hq hm ha' hd' => ?_⟩
    rcases List.mem_cons.1 hm with e | hm
    · exact absurd e hq
    · exact this.2 q hq hm ha' hd'
  uns x := by
    rw [h.uns]
    constructor
    · rintro (h1 | ⟨q, h1, h2⟩)
      · exact .inl h1
      · exact .inr ⟨q, by simp [h1], h2⟩
    · rintro (h1 | ⟨q, h1, h2, h3, h4⟩)
      · exact .inl h1
      · rcases List.mem_cons.1 h1 with e | h1
        · exact absurd e h2
        · exact .inr ⟨q, h1, h2, h3, h4⟩
  q h1 h2 := h.q h1 (h2.of rfl rfl rfl)

theorem dfacts_empty {c : Cfg} {p : Nat} {ps : List Nat} {s s' : State} (ha : s.active p = true) (hp : p ≠ c.life) (ho : s.own p = []) (hn : p ∉ ps)
    (h : DFacts c ps { s with deact := (ins p s.deact).erase p, active := upd s.active p false, react := upd s.react p false } s') :
    DFacts c (p :: ps) s s' where
  st := h.st
  own := h.own
  points := h.points
  lifeNull := h.lifeNull
  live := h.live
  next := h.next
  log := h.log
  react q hq := by
    have := h.react q hq
    simp only [upd] at this
    by_cases e : q = p
    · simp [e] at this
    · simpa [e] using this
  reactLife := by rw [h.reactLife]; exact upd_ne _ _ (Ne.symm hp)
  actGone q hq hm ha' := by
    have h1 := h.actSub q ha'
    simp only [upd] at h1
    rcases List.mem_cons.1 hm with e | hm
    · simp [e] at h1
    · exact h.actGone q hq hm ha'
  actSub q hq := by
    have h1 := h.actSub q hq
    simp only [upd] at h1
    by_cases e : q = p
    · simp [e] at h1
    · simpa [e] using h1
  actKeep q hq hq' := by
    refine h.actKeep q hq ?_
    simp only [upd]
    by_cases e : q = p
    · rw [e] at hq; exact absurd ho hq
    · simpa [e] using hq'
  actLife := by rw [h.actLife]; exact upd_ne _ _ (Ne.symm hp)
  deactIn q hq hq2 := by
    have hne : q ≠ p := by
      intro e
      rcases hq2 with h1 | h1
      · rw [e] at h1; exact h1 ho
      · exact hp (e.symm.trans h1)
    refine h.deactIn q ?_ hq2
    simp only [upd, if_neg hne]
    rcases hq with ⟨hm, h1⟩ | h1
    · rcases List.mem_cons.1 hm with e | hm
      · exact absurd e hne
      · exact .inl ⟨hm, h1⟩
    · right
      rw [List.mem_erase_of_ne hne, mem_ins]
      exact .inr h1
  deactSub q hq := by
    rcases h.deactSub q hq with h1 | ⟨h1, h2⟩
    · have := List.mem_of_mem_erase h1
      rw [mem_ins] at this
      rcases this with rfl | h1
      · exact .inr ⟨by simp, ha⟩
      · exact .inl h1
    · simp only [upd] at h2
      by_cases e : q = p
      · simp [e] at h2
      · simp only [if_neg e] at h2
        exact .inr ⟨by simp [h1], h2⟩
  deactOut hd := by
    have hd2 : ((ins p s.deact).erase p).Nodup := (nodup_ins hd).erase p
    have := h.deactOut hd2
    refine ⟨this.1, fun q hq hm ha' hd' => ?_⟩
    rcases List.mem_cons.1 hm with e | hm
    · exfalso
      subst e
      rcases h.deactSub q hd' with h1 | ⟨h1, _⟩
      · exact ((List.Nodup.mem_erase_iff (nodup_ins hd)).1 h1).1 rfl
      · exact hn h1
    · refine this.2 q hq hm ?_ hd'
      simp only [upd]
      by_cases e : q = p
      · rw [e] at hm; exact absurd hm hn
      · simpa [e] using ha'
  uns x := by
    rw [h.uns]
    constructor
    · rintro (h1 | ⟨q, h1, h2, h3, h4⟩)
      · exact .inl h1
      · refine .inr ⟨q, by simp [h1], h2, ?_, h4⟩
        simp only [upd] at h3
        by_cases e : q = p
        · simp [e] at h3
        · simpa [e] using h3
    · rintro (h1 | ⟨q, h1, h2, h3, h4⟩)
      · exact .inl h1
      · have hne : q ≠ p := by
          rintro rfl
          rw [ho] at h4; simp at h4
        rcases List.mem_cons.1 h1 with e | h1
        · exact absurd e hne
        · exact .inr ⟨q, h1, h2, by simpa [upd, hne] using h3, h4⟩
  q h1 h2 := h.q h1 (h2.of rfl rfl rfl)

theorem dfacts_marked {c : Cfg} {p : Nat} {ps : List Nat} {s s' : State} (ha : s.active p = true) (hp : p ≠ c.life) (ho : s.own p ≠ []) (hn : p ∉ ps)
    (h : DFacts c ps (markAll (s.own p).reverse { s with deact := ins p s.deact }) s') : DFacts c (p :: ps) s s' := by
  have f := frame_markAll (s.own p).reverse { s with deact := ins p s.deact }
  have hu := fun x => mem_uns_markAll (y := x) (s.own p).reverse { s with deact := ins p s.deact }
  have hq := QOk.markAll (s.own p).reverse { s with deact := ins p s.deact }
  generalize markAll (s.own p).reverse { s with deact := ins p s.deact } = s1 at *
  have fa : s1.active = s.active := f.active
  have fo : s1.own = s.own := f.own
  have fd : s1.deact = ins p s.deact := f.deact
  have fr : s1.react = s.react := f.react
  exact {
    st := h.st.trans f.st
    own := h.own.trans f.own
    points := h.points.trans f.points
    lifeNull := h.lifeNull.trans f.lifeNull
    live := h.live.trans f.live
    next := h.next.trans f.next
    log := h.log.trans f.log
    react := fun q hq => by have := h.react q hq; rwa [fr] at this
    reactLife := h.reactLife.trans (by rw [fr])
    actGone := fun q hq hm ha' => by
      rcases List.mem_cons.1 hm with e | hm
      · rw [e]; exact ho
      · have := h.actGone q hq hm ha'; rwa [fo] at this
    actSub := fun q hq => by have := h.actSub q hq; rwa [fa] at this
    actKeep := fun q h1 h2 => h.actKeep q (by rw [fo]; exact h1) (by rw [fa]; exact h2)
    actLife := h.actLife.trans (by rw [fa])
    deactIn := fun q hq hq2 => by
      refine h.deactIn q ?_ (by rw [fo]; exact hq2)
      rw [fa, fd, mem_ins]
      rcases hq with ⟨hm, h1⟩ | h1
      · rcases List.mem_cons.1 hm with e | hm
        · exact .inr (.inl e)
        · exact .inl ⟨hm, h1⟩
      · exact .inr (.inr h1)
    deactSub := fun q hq => by
      rcases h.deactSub q hq with h1 | ⟨h1, h2⟩
      · rw [fd, mem_ins] at h1
        rcases h1 with rfl | h1
        · exact .inr ⟨by simp, ha⟩
        · exact .inl h1
      · rw [fa] at h2; exact .inr ⟨by simp [h1], h2⟩
    deactOut := fun hd => by
      have := h.deactOut (by rw [fd]; exact nodup_ins hd)
      refine ⟨this.1, fun q hq hm ha' hd' => ?_⟩
      rcases List.mem_cons.1 hm with e | hm
      · rw [e]; exact ho
      · have := this.2 q hq hm (by rw [fa]; exact ha') hd'
        rwa [fo] at this
    uns := fun x => by
      rw [h.uns, hu, fa, fo]
      simp only [List.mem_reverse]
      constructor
      · rintro ((h1 | h1) | ⟨q, h1, h2⟩)
        · exact .inr ⟨p, by simp, hp, ha, h1⟩
        · exact .inl h1
        · exact .inr ⟨q, by simp [h1], h2⟩
      · rintro (h1 | ⟨q, h1, h2, h3, h4⟩)
        · exact .inl (.inr h1)
        · rcases List.mem_cons.1 h1 with e | h1
          · rw [e] at h4; exact .inl (.inl h4)
          · exact .inr ⟨q, h1, h2, h3, h4⟩
    q := fun h1 h2 => by
      refine h.q (fun q x hx => ?_) (hq (h2.of rfl rfl rfl) (fun x hx => h1 p x (by simpa using hx)))
      rw [fo] at hx
      rw [f.live]
      exact h1 q x hx }

theorem deactAll_facts (c : Cfg) : ∀ (ps : List Nat) (s s' : State), ps.Nodup → deactAll c ps s = .ok s' → DFacts c ps s s' := by
  intro ps
  induction ps with
  | nil => intro s s' _ he; simp only [deactAll, Except.ok.injEq] at he; subst he; exact .nil c s
  | cons p ps ih =>
    intro s s' hn he
    rw [List.nodup_cons] at hn
    simp only [deactAll] at he
    by_cases ha : s.active p = true
    · rw [if_pos ha] at he
      by_cases hp : p = c.life
      · rw [if_pos hp] at he
        subst hp
        exact dfacts_life ha hn.1 (ih _ _ hn.2 he)
      · rw [if_neg hp] at he
        simp only [baseDeactivate] at he
        rw [if_pos ha] at he
        by_cases ho : s.own p = []
        · rw [if_pos ho] at he
          exact dfacts_empty ha hp ho hn.1 (ih _ _ hn.2 he)
        · rw [if_neg ho] at he
          by_cases hl : s.lifeNull = true
          · rw [if_pos hl] at he; simp at he
          · rw [if_neg hl] at he
            exact dfacts_marked ha hp ho hn.1 (ih _ _ hn.2 he)
    · rw [if_neg ha] at he
      exact dfacts_skip ha (ih _ _ hn.2 he)

theorem deactAll_ok (c : Cfg) : ∀ (ps : List Nat) (s : State), s.lifeNull = false → ∃ s', deactAll c ps s = .ok s' := by
  intro ps
  induction ps with
  | nil => intro s _; exact ⟨s, rfl⟩
  | cons p ps ih =>
    intro s hl
    simp only [deactAll]
    by_cases ha : s.active p = true
    · rw [if_pos ha]
      by_cases hp : p = c.life
      · rw [if_pos hp]; exact ih _ hl
      · rw [if_neg hp]
        simp only [baseDeactivate]
        rw [if_pos ha]
        by_cases ho : s.own p = []
        · rw [if_pos ho]; exact ih _ hl
        · rw [if_neg ho, if_neg (by simp [hl])]
          exact ih _ ((frame_markAll _ _).lifeNull.trans hl)
    · rw [if_neg ha]; exact ih _ hl

theorem nodup_order (c : Cfg) : c.order.Nodup := by
  simp only [Cfg.order, List.Nodup, List.pairwise_reverse]
  exact List.nodup_range.imp (fun h => Ne.symm h)

theorem mem_order {c : Cfg} {p : Nat} : p ∈ c.order ↔ p < c.n := by simp [Cfg.order]

end Verif.Lifetime
