import Verif.Routing.Model

namespace Verif.Routing

theorem get_mem {l : List Holder} {i : Nat} {h : Holder} (hg : get l i = some h) : h ∈ l ∧ h.id = i := by
  have h1 := List.mem_of_find?_eq_some hg
  have h2 := List.find?_some hg
  simp only [decide_eq_true_eq] at h2
  exact ⟨h1, h2⟩

theorem mem_setPhase {l : List Holder} {i : Nat} {p : Phase} {h : Holder} (hm : h ∈ setPhase l i p) :
    (h ∈ l ∧ h.id ≠ i) ∨ ∃ h0 ∈ l, h0.id = i ∧ h = { h0 with phase := p } := by
  simp only [setPhase, List.mem_map] at hm
  obtain ⟨h0, h1, h2⟩ := hm
  by_cases e : h0.id = i
  · rw [if_pos e] at h2; exact .inr ⟨h0, h1, e, h2.symm⟩
  · rw [if_neg e] at h2; subst h2; exact .inl ⟨h1, e⟩

theorem ids_setPhase (l : List Holder) (i : Nat) (p : Phase) : (setPhase l i p).map (·.id) = l.map (·.id) := by
  simp only [setPhase, List.map_map]
  congr 1
  funext h
  simp only [Function.comp]
  split <;> rfl

theorem mem_remove {l : List Holder} {i : Nat} {h : Holder} : h ∈ remove l i ↔ h ∈ l ∧ h.id ≠ i := by simp [remove]

theorem uniq : ∀ {l : List Holder}, (l.map (·.id)).Nodup → ∀ {a b : Holder}, a ∈ l → b ∈ l → a.id = b.id → a = b := by
  intro l
  induction l with
  | nil => intro _ a b ha; simp at ha
  | cons x l ih =>
    intro hn a b ha hb he
    simp only [List.map_cons, List.nodup_cons, List.mem_map, not_exists, not_and] at hn
    rcases List.mem_cons.1 ha with ha' | ha'
    · rcases List.mem_cons.1 hb with hb' | hb'
      · rw [ha', hb']
      · exact absurd (by rw [← he, ha']) (hn.1 b hb')
    · rcases List.mem_cons.1 hb with hb' | hb'
      · exact absurd (by rw [he, hb']) (hn.1 a ha')
      · exact ih hn.2 ha' hb' he

structure Inv (s : State) : Prop where
  nodup : (s.holders.map (·.id)).Nodup
  bound : ∀ h ∈ s.holders, h.id < s.next
  started : ∀ i, .start i ∈ s.log → i < s.next
  /-- whoever has started and not finished still holds a reference -/
  open_ : ∀ i, .start i ∈ s.log → .finish i ∈ s.log ∨ ∃ h ∈ s.holders, h.id = i ∧ h.phase = .busy
  saw1 : ∀ h ∈ s.holders, h.phase = .saw 1 → s.queued = false ∧ s.holders = [h]
  cap : ∀ h ∈ s.holders, h.checks = false → h.phase = .busy
  hops : (s.log.countP fun e => match e with | .hop _ => true | _ => false) = if s.route then 0 else 1
  q : s.queued = !s.route
  qh : s.queued = true → s.holders = []
  closed : ∀ pre post i, s.log = post ++ .hop i :: pre → (∀ j, .start j ∈ pre → .finish j ∈ pre) ∧ ∀ j, .start j ∉ post

theorem inv_init : Inv .init := by
  refine ⟨by simp [State.init], by simp [State.init], by simp [State.init], by simp [State.init], by simp [State.init], by simp [State.init],
    by simp [State.init], rfl, by simp [State.init], ?_⟩
  intro pre post i h
  have : Ev.hop i ∈ State.init.log := by rw [h]; simp
  simp [State.init] at this

theorem nohop {s : State} (hi : Inv s) (hr : s.route = true) (i : Nat) : .hop i ∉ s.log := by
  intro hm
  have := hi.hops
  rw [hr] at this
  simp only [if_true, List.countP_eq_zero] at this
  exact absurd rfl (this _ hm)

theorem route_of_holder {s : State} (hi : Inv s) {h : Holder} (hm : h ∈ s.holders) : s.route = true ∧ s.queued = false := by
  have hq : s.queued = false := by
    cases hq : s.queued with
    | false => rfl
    | true => rw [hi.qh hq] at hm; simp at hm
  refine ⟨?_, hq⟩
  have := hi.q
  rw [hq] at this
  cases hr : s.route with
  | true => rfl
  | false => rw [hr] at this; simp at this

theorem closed_cons {s : State} (hi : Inv s) (hr : s.route = true) (e : Ev) (he : ∀ i, e ≠ .hop i) :
    ∀ pre post i, e :: s.log = post ++ .hop i :: pre → (∀ j, .start j ∈ pre → .finish j ∈ pre) ∧ ∀ j, .start j ∉ post := by
  intro pre post i h
  have : Ev.hop i ∈ e :: s.log := by rw [h]; simp
  simp only [List.mem_cons] at this
  rcases this with h1 | h1
  · exact absurd h1.symm (he i)
  · exact absurd h1 (nohop hi hr i)

theorem inv_new (s : State) (hi : Inv s) {h : Holder} {i : Nat} (hg : get s.holders i = some h) (hb : h.phase = .busy) (chk : Bool) :
    Inv { s with holders := s.holders ++ [⟨s.next, .busy, chk⟩], next := s.next + 1, log := .start s.next :: s.log } := by
  obtain ⟨hm, hid⟩ := get_mem hg
  obtain ⟨hr, hq⟩ := route_of_holder hi hm
  refine ⟨?_, ?_, ?_, ?_, ?_, ?_, ?_, hi.q, ?_, closed_cons hi hr _ (by simp)⟩
  · simp only [List.map_append, List.map_cons, List.map_nil]
    rw [List.nodup_append]
    refine ⟨hi.nodup, by simp, ?_⟩
    intro x hx y hy
    simp only [List.mem_singleton] at hy
    simp only [List.mem_map] at hx
    obtain ⟨h', h1, rfl⟩ := hx
    have := hi.bound h' h1
    omega
  · intro h' hm'
    simp only [List.mem_append, List.mem_singleton] at hm'
    rcases hm' with hm' | rfl
    · exact Nat.lt_succ_of_lt (hi.bound h' hm')
    · exact Nat.lt_succ_self _
  · intro j hj
    simp only [List.mem_cons, Ev.start.injEq] at hj
    rcases hj with rfl | hj
    · exact Nat.lt_succ_self _
    · exact Nat.lt_succ_of_lt (hi.started j hj)
  · intro j hj
    simp only [List.mem_cons, Ev.start.injEq] at hj
    rcases hj with rfl | hj
    · exact .inr ⟨⟨s.next, .busy, chk⟩, by simp, rfl, rfl⟩
    · rcases hi.open_ j hj with h1 | ⟨h', h1, h2, h3⟩
      · exact .inl (by simp [h1])
      · exact .inr ⟨h', by simp [h1], h2, h3⟩
  · intro h' hm' hs
    simp only [List.mem_append, List.mem_singleton] at hm'
    rcases hm' with hm' | rfl
    · obtain ⟨_, h2⟩ := hi.saw1 h' hm' hs
      rw [h2] at hm
      simp only [List.mem_singleton] at hm
      subst hm
      rw [hb] at hs; simp at hs
    · simp at hs
  · intro h' hm' hc
    simp only [List.mem_append, List.mem_singleton] at hm'
    rcases hm' with hm' | rfl
    · exact hi.cap h' hm' hc
    · rfl
  · have := hi.hops
    simp only [List.countP_cons] at this ⊢
    simpa using this
  · intro hq'; exact absurd (hq ▸ hq') (by simp)

theorem inv_step (s : State) (op : Op) (hi : Inv s) : Inv (step s op) := by
  cases op with
  | wrap =>
    simp only [step]
    cases hg : get s.holders 0 with
    | none => exact hi
    | some h =>
      simp only
      by_cases hb : h.phase = .busy
      · rw [if_pos hb]; exact inv_new s hi hg hb true
      · rw [if_neg hb]; exact hi
  | capture i =>
    simp only [step]
    cases hg : get s.holders i with
    | none => exact hi
    | some h =>
      simp only
      by_cases hb : h.phase = .busy
      · rw [if_pos hb]; exact inv_new s hi hg hb false
      · rw [if_neg hb]; exact hi
  | dropCaptured i =>
    simp only [step]
    cases hg : get s.holders i with
    | none => exact hi
    | some h =>
      simp only
      by_cases hb : h.checks = false
      · rw [if_pos hb]
        obtain ⟨hm, hid⟩ := get_mem hg
        obtain ⟨hr, hq⟩ := route_of_holder hi hm
        refine ⟨?_, ?_, ?_, ?_, ?_, ?_, ?_, hi.q, ?_, closed_cons hi hr _ (by simp)⟩
        · exact List.Pairwise.sublist ((List.filter_sublist).map _) hi.nodup
        · intro h' hm'; exact hi.bound h' (mem_remove.1 hm').1
        · intro j hj; simp only [List.mem_cons, reduceCtorEq, false_or] at hj; exact hi.started j hj
        · intro j hj
          simp only [List.mem_cons, reduceCtorEq, false_or] at hj
          rcases hi.open_ j hj with h1 | ⟨h', h1, h2, h3⟩
          · exact .inl (by simp [h1])
          · by_cases e : j = i
            · subst e; exact .inl (by simp)
            · exact .inr ⟨h', mem_remove.2 ⟨h1, by rw [h2]; exact e⟩, h2, h3⟩
        · intro h' hm' hs
          obtain ⟨_, h2⟩ := hi.saw1 h' (mem_remove.1 hm').1 hs
          rw [h2] at hm
          simp only [List.mem_singleton] at hm
          subst hm
          exact absurd hid (mem_remove.1 hm').2
        · intro h' hm' hc; exact hi.cap h' (mem_remove.1 hm').1 hc
        · have := hi.hops
          simp only [List.countP_cons] at this ⊢
          simpa using this
        · intro hq'; exact absurd (hq ▸ hq') (by simp)
      · rw [if_neg hb]; exact hi
  | finish i =>
    simp only [step]
    cases hg : get s.holders i with
    | none => exact hi
    | some h =>
      simp only
      by_cases hb : h.phase = .busy ∧ h.checks = true
      · rw [if_pos hb]
        obtain ⟨hm, hid⟩ := get_mem hg
        obtain ⟨hr, hq⟩ := route_of_holder hi hm
        refine ⟨by rw [ids_setPhase]; exact hi.nodup, ?_, ?_, ?_, ?_, ?_, ?_, hi.q, ?_, closed_cons hi hr _ (by simp)⟩
        · intro h' hm'
          rcases mem_setPhase hm' with ⟨h1, _⟩ | ⟨h0, h1, _, rfl⟩
          · exact hi.bound h' h1
          · exact hi.bound h0 h1
        · intro j hj; simp only [List.mem_cons, reduceCtorEq, false_or] at hj; exact hi.started j hj
        · intro j hj
          simp only [List.mem_cons, reduceCtorEq, false_or] at hj
          rcases hi.open_ j hj with h1 | ⟨h', h1, h2, h3⟩
          · exact .inl (by simp [h1])
          · by_cases e : j = i
            · subst e; exact .inl (by simp)
            · refine .inr ⟨h', ?_, h2, h3⟩
              simp only [setPhase, List.mem_map]
              exact ⟨h', h1, by rw [if_neg (by rw [h2]; exact e)]⟩
        · intro h' hm' hs
          rcases mem_setPhase hm' with ⟨h1, h2⟩ | ⟨h0, h1, _, rfl⟩
          · obtain ⟨_, h3⟩ := hi.saw1 h' h1 hs
            rw [h3] at hm
            simp only [List.mem_singleton] at hm
            subst hm
            exact absurd hid h2
          · simp at hs
        · intro h' hm' hc
          rcases mem_setPhase hm' with ⟨h1, _⟩ | ⟨h0, h1, h2, rfl⟩
          · exact hi.cap h' h1 hc
          · simp only at hc
            have : h0 = h := by
              exact uniq hi.nodup h1 hm (h2.trans hid.symm)
            rw [this] at hc
            rw [hb.2] at hc; simp at hc
        · have := hi.hops
          simp only [List.countP_cons] at this ⊢
          simpa using this
        · intro hq'; exact absurd (hq ▸ hq') (by simp)
      · rw [if_neg hb]; exact hi
  | load i =>
    simp only [step]
    cases hg : get s.holders i with
    | none => exact hi
    | some h =>
      simp only
      by_cases hb : h.phase = .done
      · rw [if_pos hb]
        obtain ⟨hm, hid⟩ := get_mem hg
        obtain ⟨hr, hq⟩ := route_of_holder hi hm
        refine ⟨by rw [ids_setPhase]; exact hi.nodup, ?_, hi.started, ?_, ?_, ?_, hi.hops, hi.q, ?_, hi.closed⟩
        · intro h' hm'
          rcases mem_setPhase hm' with ⟨h1, _⟩ | ⟨h0, h1, _, rfl⟩
          · exact hi.bound h' h1
          · exact hi.bound h0 h1
        · intro j hj
          rcases hi.open_ j hj with h1 | ⟨h', h1, h2, h3⟩
          · exact .inl h1
          · by_cases e : j = i
            · subst e
              exfalso
              have hu := uniq hi.nodup h1 hm (h2.trans hid.symm)
              subst hu
              rw [hb] at h3; simp at h3
            · refine .inr ⟨h', ?_, h2, h3⟩
              simp only [setPhase, List.mem_map]
              exact ⟨h', h1, by rw [if_neg (by rw [h2]; exact e)]⟩
        · intro h' hm' hs
          refine ⟨hq, ?_⟩
          rcases mem_setPhase hm' with ⟨h1, h2⟩ | ⟨h0, h1, h2, rfl⟩
          · obtain ⟨_, h3⟩ := hi.saw1 h' h1 hs
            rw [h3] at hm
            simp only [List.mem_singleton] at hm
            subst hm
            exact absurd hid h2
          · simp only [Phase.saw.injEq, State.count, hq] at hs
            simp only [Bool.false_eq_true, if_false, Nat.add_zero] at hs
            obtain ⟨x, hx⟩ := List.length_eq_one_iff.1 hs
            rw [hx] at h1
            simp only [List.mem_singleton] at h1
            subst h1
            simp [hx, setPhase, h2]
        · intro h' hm' hc
          rcases mem_setPhase hm' with ⟨h1, _⟩ | ⟨h0, h1, h2, rfl⟩
          · exact hi.cap h' h1 hc
          · simp only at hc
            have hu := uniq hi.nodup h1 hm (h2.trans hid.symm)
            subst hu
            have := hi.cap h0 h1 hc
            rw [hb] at this; simp at this
        · intro hq'; exact absurd (hq ▸ hq') (by simp)
      · rw [if_neg hb]; exact hi
  | act i =>
    simp only [step]
    cases hg : get s.holders i with
    | none => exact hi
    | some h =>
      simp only
      cases hp : h.phase with
      | busy => exact hi
      | done => exact hi
      | saw n =>
        simp only
        obtain ⟨hm, hid⟩ := get_mem hg
        obtain ⟨hr, hq⟩ := route_of_holder hi hm
        by_cases hc : s.route = true ∧ n = 1
        · rw [if_pos hc]
          obtain ⟨_, rfl⟩ := hc
          obtain ⟨_, hone⟩ := hi.saw1 h hm hp
          have hempty : remove s.holders i = [] := by rw [hone]; simp [remove, hid]
          refine ⟨by rw [hempty]; simp, by rw [hempty]; simp, ?_, ?_, by rw [hempty]; simp, by rw [hempty]; simp, ?_, ?_, fun _ => hempty, ?_⟩
          · intro j hj; simp only [List.mem_cons, reduceCtorEq, false_or] at hj; exact hi.started j hj
          · intro j hj
            simp only [List.mem_cons, reduceCtorEq, false_or] at hj
            rcases hi.open_ j hj with h1 | ⟨h', h1, h2, h3⟩
            · exact .inl (by simp [h1])
            · rw [hone] at h1
              simp only [List.mem_singleton] at h1
              subst h1
              rw [hp] at h3; simp at h3
          · have := hi.hops
            rw [hr] at this
            simp only [List.countP_cons, if_true] at this ⊢
            simp [this]
          · simp
          · intro pre post j hl
            cases post with
            | nil =>
              simp only [List.nil_append, List.cons.injEq] at hl
              obtain ⟨_, rfl⟩ := hl
              refine ⟨?_, by simp⟩
              intro k hk
              rcases hi.open_ k hk with h1 | ⟨h', h1, h2, h3⟩
              · exact h1
              · rw [hone] at h1
                simp only [List.mem_singleton] at h1
                subst h1
                rw [hp] at h3; simp at h3
            | cons x post =>
              simp only [List.cons_append, List.cons.injEq] at hl
              exact absurd (by rw [hl.2]; simp) (nohop hi hr j)
        · rw [if_neg hc]
          refine ⟨?_, ?_, hi.started, ?_, ?_, ?_, hi.hops, hi.q, ?_, hi.closed⟩
          · exact List.Pairwise.sublist ((List.filter_sublist).map _) hi.nodup
          · intro h' hm'; exact hi.bound h' (mem_remove.1 hm').1
          · intro j hj
            rcases hi.open_ j hj with h1 | ⟨h', h1, h2, h3⟩
            · exact .inl h1
            · by_cases e : j = i
              · subst e
                exfalso
                have hu := uniq hi.nodup h1 hm (h2.trans hid.symm)
                subst hu
                rw [hp] at h3; simp at h3
              · exact .inr ⟨h', mem_remove.2 ⟨h1, by rw [h2]; exact e⟩, h2, h3⟩
          · intro h' hm' hs
            obtain ⟨_, h2⟩ := hi.saw1 h' (mem_remove.1 hm').1 hs
            rw [h2] at hm
            simp only [List.mem_singleton] at hm
            subst hm
            exact absurd hid (mem_remove.1 hm').2
          · intro h' hm' hc'; exact hi.cap h' (mem_remove.1 hm').1 hc'
          · intro hq'; exact absurd (hq ▸ hq') (by simp)

theorem inv_run (ops : List Op) : ∀ s, Inv s → Inv (run s ops) := by
  induction ops with
  | nil => intro s h; exact h
  | cons op ops ih => intro s h; exact ih _ (inv_step s op h)

end Verif.Routing
