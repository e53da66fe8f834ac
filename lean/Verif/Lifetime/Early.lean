import Verif.Lifetime.Props
/-!
# C32: one reply, and nothing undone before its time
-/

namespace Verif.Lifetime
open Verif

/-! ## reactions are only switched off -/

def Off (s s' : State) : Prop := ∀ i, s.react i = false → s'.react i = false

theorem Off.refl (s : State) : Off s s := fun _ h => h
theorem Off.trans {a b d : State} (h : Off a b) (g : Off b d) : Off a d := fun i hi => g i (h i hi)

theorem mark_react (x : Sub) (s : State) : (mark x s).react = s.react := by unfold mark; split <;> rfl
theorem markAll_react : ∀ (l : List Sub) (s : State), (markAll l s).react = s.react
  | [], _ => rfl
  | x :: l, s => by rw [markAll, markAll_react l, mark_react]

theorem off_base {p : Nat} {s s' : State} (h : baseDeactivate p s = .ok s') : Off s s' := by
  unfold baseDeactivate at h
  split at h
  · split at h
    · injection h with h; subst h
      intro i hi
      simp only [upd]; split
      · rfl
      · exact hi
    · split at h
      · simp at h
      · injection h with h; subst h
        intro i hi; rw [markAll_react]; exact hi
  · injection h with h; subst h; exact .refl _

theorem off_deactAll {c : Cfg} : ∀ (ps : List Nat) (s s' : State), deactAll c ps s = .ok s' → Off s s'
  | [], s, s', h => by simp [deactAll] at h; subst h; exact .refl _
  | p :: ps, s, s', h => by
    simp only [deactAll] at h
    split at h
    · split at h
      · exact fun i hi => off_deactAll ps _ _ h i hi
      · split at h
        · simp at h
        · rename_i s2 e
          exact Off.trans (fun i hi => off_base e i hi) (off_deactAll ps _ _ h)
    · exact off_deactAll ps _ _ h

theorem off_lifeUnsub {c : Cfg} {s s' : State} (h : lifeUnsub c s = .ok s') : Off s s' := by
  unfold lifeUnsub at h
  simp only [] at h
  have h0 : Off s { markAll (s.points.filter anon).reverse s with points := s.points.filter anon } := fun i hi => by
    show (markAll _ s).react i = false
    rw [markAll_react]; exact hi
  split at h
  · split at h
    · split at h
      · simp at h
      · rename_i s2 e
        split at h
        · injection h with h; subst h
          exact Off.trans h0 (fun i hi => off_base e i hi)
        · simp at h
    · injection h with h; subst h; exact h0
  · split at h
    · simp at h
    · injection h with h; subst h; exact h0

theorem off_vote {c : Cfg} {env : Env} {p : Nat} {s s' : State} {b : Bool} (h : vote c env p s = .ok (s', b)) : Off s s' := by
  simp only [vote] at h
  split at h
  · split at h
    · simp only [Except.ok.injEq, Prod.mk.injEq] at h; obtain ⟨h, -⟩ := h; subst h; exact .refl _
    · split at h
      · simp at h
      · rename_i s1 e
        simp only [Except.ok.injEq, Prod.mk.injEq] at h; obtain ⟨h, -⟩ := h; subst h; exact off_lifeUnsub e
  · split at h
    · split at h
      · simp at h
      · rename_i s1 e
        simp only [Except.ok.injEq, Prod.mk.injEq] at h; obtain ⟨h, -⟩ := h; subst h; exact off_deactAll _ _ _ e
    · simp only [Except.ok.injEq, Prod.mk.injEq] at h; obtain ⟨h, -⟩ := h; subst h; exact .refl _

theorem off_pass {c : Cfg} {env : Env} : ∀ (ps : List Nat) (s s' : State) (b : Bool), pass c env ps s = .ok (s', b) → Off s s'
  | [], s, s', b, h => by simp only [pass, Except.ok.injEq, Prod.mk.injEq] at h; obtain ⟨h, -⟩ := h; subst h; exact .refl _
  | p :: ps, s, s', b, h => by
    simp only [pass] at h
    split at h
    · split at h
      · simp at h
      · rename_i s1 e
        refine Off.trans (off_vote e) (Off.trans (b := { s1 with react := upd s1.react p false }) ?_ (off_pass ps _ _ _ h))
        intro i hi
        simp only [upd]; split
        · rfl
        · exact hi
      · rename_i s1 e
        simp only [Except.ok.injEq, Prod.mk.injEq] at h; obtain ⟨h, -⟩ := h; subst h; exact off_vote e
    · exact off_pass ps _ _ _ h

/-! ## as long as the init_shutdown plugin has not been asked -/

/-- nothing is unsubscribed -/
structure Still (s s' : State) : Prop where
  queue : s'.queue = s.queue
  points : s'.points = s.points
  live : s'.live = s.live
  rem : ∀ x, .removed x ∈ s'.log → .removed x ∈ s.log

theorem Still.refl (s : State) : Still s s := ⟨rfl, rfl, rfl, fun _ h => h⟩
theorem Still.trans {a b d : State} (h : Still a b) (g : Still b d) : Still a d :=
  ⟨g.queue.trans h.queue, g.points.trans h.points, g.live.trans h.live, fun x hx => h.rem x (g.rem x hx)⟩

theorem pass_still {c : Cfg} {env : Env} : ∀ (k : Nat) (s s' : State) (b : Bool), c.shut ≤ k → s.react c.shut = true →
    pass c env (List.range (k + 1)).reverse s = .ok (s', b) → s'.react c.shut = false ∨ Still s s' := by
  intro k
  induction k with
  | zero => intro s s' b h; simp [Cfg.shut] at h
  | succ k ih =>
    intro s s' b hk hr h
    rw [range_succ_reverse] at h
    simp only [pass] at h
    by_cases he : k + 1 = c.shut
    · left
      rw [he, hr] at h
      simp only [if_true] at h
      split at h
      · simp at h
      · rename_i s1 e
        exact off_pass _ _ _ _ h c.shut (by simp [upd])
      · rename_i s1 e
        simp only [vote] at e
        rw [if_neg (by simp [Cfg.shut])] at e
        simp only [if_true] at e
        split at e <;> simp at e
    · have hk' : c.shut ≤ k := by omega
      split at h
      · split at h
        · simp at h
        · rename_i s1 e
          simp only [vote] at e
          rw [if_neg (by simp [Cfg.shut] at hk'; omega), if_neg he] at e
          simp only [Except.ok.injEq, Prod.mk.injEq] at e
          obtain ⟨e, -⟩ := e
          subst e
          have hb : upd s.react (k + 1) false c.shut = true := by simp [upd, Ne.symm he, hr]
          rcases ih _ _ _ hk' hb h with g | g
          · exact .inl g
          · exact .inr ⟨g.queue, g.points, g.live, fun x hx => by simpa using g.rem x hx⟩
        · rename_i s1 e
          simp only [vote] at e
          rw [if_neg (by simp [Cfg.shut] at hk'; omega), if_neg he] at e
          simp only [Except.ok.injEq, Prod.mk.injEq] at e h
          obtain ⟨e, -⟩ := e
          obtain ⟨h, -⟩ := h
          subst h; subst e
          exact .inr ⟨rfl, rfl, rfl, fun x hx => by simpa using hx⟩
      · exact ih _ _ _ hk' hr h

theorem continue_still {c : Cfg} {env : Env} {s s' : State} (hr : s.react c.shut = true) (h : shutdownContinue c env s = .ok s') :
    s'.react c.shut = false ∨ Still s s' := by
  have hn := c.hn
  unfold shutdownContinue at h
  rw [show c.order = (List.range (c.n - 1 + 1)).reverse by rw [show c.n - 1 + 1 = c.n by omega]; rfl] at h
  split at h
  · split at h
    · simp at h
    · rename_i s1 e
      unfold finish at h
      split at h
      · injection h with h; subst h
        rcases pass_still _ _ _ _ (by simp only [Cfg.shut]; omega) hr e with g | g
        · exact .inl g
        · exact .inr ⟨g.queue, g.points, g.live, fun x hx => g.rem x (by simpa using hx)⟩
      · simp at h
    · rename_i s1 e
      injection h with h; subst h
      exact pass_still _ _ _ _ (by simp only [Cfg.shut]; omega) hr e
  · simp at h

theorem continue_off {c : Cfg} {env : Env} {s s' : State} (h : shutdownContinue c env s = .ok s') : Off s s' := by
  unfold shutdownContinue at h
  split at h
  · split at h
    · simp at h
    · rename_i s1 e
      unfold finish at h
      split at h
      · injection h with h; subst h; exact fun i hi => off_pass _ _ _ _ e i hi
      · simp at h
    · rename_i s1 e
      injection h with h; subst h; exact off_pass _ _ _ _ e
  · simp at h

/-- what has been undone, or is about to be, was unsubscribed by the user -/
structure Early (c : Cfg) (ops : List Op) (s : State) : Prop where
  q : ∀ x ∈ s.queue, .unsubscribe x ∈ ops
  r : ∀ x, .removed x ∈ s.log → .unsubscribe x ∈ ops
  p : hInt c ∈ s.live → hInt c ∈ s.points

theorem Early.still {c : Cfg} {ops : List Op} {s s' : State} (h : Early c ops s) (g : Still s s') : Early c ops s' :=
  ⟨by rw [g.queue]; exact h.q, fun x hx => h.r x (g.rem x hx), by rw [g.live, g.points]; exact h.p⟩

theorem Early.more {c : Cfg} {ops : List Op} {s : State} (h : Early c ops s) (op : Op) : Early c (op :: ops) s :=
  ⟨fun x hx => .tail _ (h.q x hx), fun x hx => .tail _ (h.r x hx), h.p⟩

theorem forget_early {c : Cfg} {env : Env} {ops : List Op} {p : Nat} {x : Sub} {s s' : State} (hs : s.react c.shut = true)
    (h : Early c ops s) (hx : .unsubscribe x ∈ ops) (he : forget c env p x s = .ok s') :
    s'.react c.shut = false ∨ Early c ops s' := by
  have h1 : ∀ d : List Nat, Early c ops { s with own := upd s.own p ((s.own p).erase x), live := s.live.erase x, log := .removed x :: s.log, deact := d } :=
    fun d => ⟨h.q, fun y hy => by
      rcases List.mem_cons.1 hy with e | e
      · injection e with e; subst e; exact hx
      · exact h.r y e, fun hm => h.p (List.mem_of_mem_erase hm)⟩
  unfold forget at he
  simp only [] at he
  split at he
  · split at he
    · split at he
      · simp at he
      · rename_i s3 e
        injection he with he; subst he
        rcases continue_still (c := c) (s := { s with own := upd s.own p ((s.own p).erase x), live := s.live.erase x, log := .removed x :: s.log, deact := s.deact.erase p }) hs e with g | g
        · exact .inl g
        · have := (h1 (s.deact.erase p)).still g
          exact .inr ⟨this.q, this.r, this.p⟩
    · injection he with he; subst he
      have := h1 (s.deact.erase p)
      exact .inr ⟨this.q, this.r, this.p⟩
  · injection he with he; subst he
    exact .inr (h1 s.deact)

theorem forgetAnon_early {c : Cfg} {ops : List Op} {x : Sub} {s s' : State} (h : Early c ops s) (hx : .unsubscribe x ∈ ops) (hl : hInt c ∈ s.live)
    (ho : x.owner = none) (he : forgetAnon c x s = .ok s') : Early c ops s' := by
  have hne : hInt c ≠ x := by rintro rfl; simp [hInt] at ho
  unfold forgetAnon at he
  split at he
  · simp only [] at he
    have hp : hInt c ∈ s.points.erase x := (List.mem_erase_of_ne hne).2 (h.p hl)
    split at he
    · rename_i e
      rw [e] at hp; simp at hp
    · injection he with he; subst he
      refine ⟨h.q, fun y hy => ?_, fun _ => hp⟩
      rcases List.mem_cons.1 hy with e | e
      · injection e with e; subst e; exact hx
      · exact h.r y e
  · simp at he

theorem confirm_early {c : Cfg} {env : Env} {ops : List Op} {s s' : State} (hs : s.react c.shut = true) (h : Early c ops s)
    (he : confirm c env s = .ok s') : s'.react c.shut = false ∨ Early c ops s' := by
  unfold confirm at he
  split at he
  · injection he with he; subst he; exact .inr h
  · rename_i x rest hq
    have hx : .unsubscribe x ∈ ops := h.q x (by simp [hq])
    have h1 : Early c ops { s with queue := rest } := ⟨fun y hy => h.q y (by rw [hq]; exact .tail _ hy), h.r, h.p⟩
    simp only [] at he
    split at he
    · split at he
      · split at he
        · exact forget_early (s := { s with queue := rest }) hs h1 hx he
        · simp at he
      · injection he with he; subst he; exact .inr h1
    · split at he
      · rename_i hl
        split at he
        · rename_i ho
          exact .inr (forgetAnon_early h1 hx hl ho he)
        · split at he
          · exact forget_early (s := { s with queue := rest }) hs h1 hx he
          · injection he with he; subst he; exact .inr h1
      · injection he with he; subst he; exact .inr h1

theorem subscribe_early {c : Cfg} {ops : List Op} {b e : Bool} {s s' : State} (h : Early c ops s) (he : subscribe c b e s = .ok s') : Early c ops s' := by
  unfold subscribe at he
  simp only [] at he
  split at he
  · simp at he
  · have hI : hInt c ∈ s.live ++ [⟨if b = true then some c.starter else none, true, s.next, e⟩] →
        hInt c ∈ s.points ++ [⟨if b = true then some c.starter else none, true, s.next, e⟩] := by
      intro hm
      rcases List.mem_append.1 hm with g | g
      · exact List.mem_append_left _ (h.p g)
      · exact List.mem_append_right _ g
    injection he with he; subst he
    cases b with
    | true => exact ⟨h.q, fun x hx => h.r x (by simpa using hx), hI⟩
    | false => exact ⟨h.q, fun x hx => h.r x (by simpa using hx), hI⟩

theorem off_forget {c : Cfg} {env : Env} {p : Nat} {x : Sub} {s s' : State} (h : forget c env p x s = .ok s') : Off s s' := by
  unfold forget at h
  simp only [] at h
  split at h
  · split at h
    · split at h
      · simp at h
      · rename_i s3 e
        injection h with h; subst h
        exact fun i hi => continue_off e i hi
    · injection h with h; subst h; exact fun i hi => hi
  · injection h with h; subst h; exact fun i hi => hi

theorem off_forgetAnon {c : Cfg} {x : Sub} {s s' : State} (h : forgetAnon c x s = .ok s') : Off s s' := by
  unfold forgetAnon at h
  split at h
  · simp only [] at h
    split at h
    · exact fun i hi => off_base h i hi
    · injection h with h; subst h; exact fun i hi => hi
  · simp at h

theorem off_confirm {c : Cfg} {env : Env} {s s' : State} (h : confirm c env s = .ok s') : Off s s' := by
  unfold confirm at h
  split at h
  · injection h with h; subst h; exact .refl _
  · simp only [] at h
    repeat' split at h
    all_goals first
      | (simp at h; done)
      | exact fun i hi => off_forget h i hi
      | exact fun i hi => off_forgetAnon h i hi
      | (injection h with h; subst h; exact fun i hi => hi)

theorem subscribe_react {c : Cfg} {b e : Bool} {s s' : State} (he : subscribe c b e s = .ok s') : s'.react = s.react := by
  unfold subscribe at he
  simp only [] at he
  split at he
  · simp at he
  · injection he with he; subst he; split <;> rfl

/-- once the init_shutdown plugin has been asked, it is not asked again -/
theorem step_off {c : Cfg} {env : Env} {op : Op} {s s' : State} (h : step c env s op = .ok s') (hs : s.react c.shut = false) :
    s'.react c.shut = false := by
  cases op with
  | request =>
    simp only [step] at h
    split at h
    · exact continue_off h c.shut hs
    · simp at h
  | cont p =>
    simp only [step] at h
    split at h
    · exact continue_off h c.shut hs
    · simp at h
  | join p => simp only [step] at h; rw [if_neg (by simp [hs])] at h; simp at h
  | confirm => exact off_confirm h c.shut hs
  | subscribe b e => simp only [step] at h; rw [if_neg (by simp [hs])] at h; simp at h
  | unsubscribe x => simp only [step] at h; rw [if_neg (by simp [hs])] at h; simp at h
  | lateSubscribe b e =>
    simp only [step] at h
    split at h
    · rw [subscribe_react h]; exact hs
    · simp at h
  | lateUnsubscribe x =>
    simp only [step] at h
    split at h
    · split at h
      · simp at h
      · injection h with h; subst h; rw [mark_react]; exact hs
    · simp at h

theorem step_early {c : Cfg} {env : Env} {op : Op} {ops : List Op} {s s' : State} (he : step c env s op = .ok s') (hs : s.react c.shut = true)
    (h : Early c ops s) : s'.react c.shut = false ∨ Early c (op :: ops) s' := by
  have h' := h.more op
  have lift : ∀ {t : State}, t.react c.shut = false ∨ Still s t → t.react c.shut = false ∨ Early c (op :: ops) t := fun g => g.imp id (fun g => h'.still g)
  cases op with
  | request =>
    simp only [step] at he
    split at he
    · rcases continue_still (s := { s with st := .shuttingDown }) hs he with g | g
      · exact .inl g
      · exact .inr (h'.still ⟨g.queue, g.points, g.live, g.rem⟩)
    · simp at he
  | cont p =>
    simp only [step] at he
    split at he
    · exact lift (continue_still hs he)
    · simp at he
  | join p =>
    simp only [step] at he
    split at he
    · injection he with he; subst he; exact .inr ⟨h'.q, h'.r, h'.p⟩
    · simp at he
  | confirm => exact (confirm_early hs h he).imp id (fun g => g.more _)
  | subscribe b e =>
    simp only [step] at he
    rw [if_pos hs] at he
    exact .inr (subscribe_early h' he)
  | unsubscribe x =>
    simp only [step] at he
    split at he
    · injection he with he; subst he
      right
      unfold mark
      split
      · exact h'
      · refine ⟨fun y hy => ?_, h'.r, h'.p⟩
        rcases List.mem_append.1 hy with g | g
        · exact h'.q y g
        · simp at g; subst g; simp
    · simp at he
  | lateSubscribe b e => simp only [step] at he; rw [if_neg (by simp [hs])] at he; simp at he
  | lateUnsubscribe x => simp only [step] at he; rw [if_neg (by simp [hs])] at he; simp at he

theorem run_early {c : Cfg} {env : Env} : ∀ (ops done : List Op) (s s' : State), run c env s ops = .ok s' → (s.react c.shut = true → Early c done s) →
    s'.react c.shut = true → Early c (ops.reverse ++ done) s'
  | [], done, s, s', h, g, hr => by simp [run] at h; subst h; exact g hr
  | op :: ops, done, s, s', h, g, hr => by
    simp only [run] at h
    split at h
    · simp at h
    · rename_i s1 e
      have := run_early ops (op :: done) s1 s' h (fun h1 => by
        cases h0 : s.react c.shut with
        | false => rw [step_off e h0] at h1; simp at h1
        | true =>
          rcases step_early e h0 (g h0) with k | k
          · rw [k] at h1; simp at h1
          · exact k) hr
      simpa using this

/-- **C32**. As long as the init_shutdown plugin has not agreed to the shutdown, in particular as long as none has been requested or some plugin
has not agreed, no subscription is undone, except those the user has unsubscribed. -/
theorem C32_not_undone_before (c : Cfg) (env : Env) (ops : List Op) (s : State) (h : run c env (State.init c) ops = .ok s)
    (hr : s.react c.shut = true) (x : Sub) (hx : .removed x ∈ s.log) : .unsubscribe x ∈ ops := by
  have := (run_early ops [] (State.init c) s h (fun _ => ⟨by simp [State.init], fun y hy => by simp [State.init] at hy, fun hm => by simpa [State.init] using hm⟩) hr).r x hx
  simpa using this

/-! ## one reply -/

def One (s : State) : Prop := (s.st = .shutDown ∧ s.log.count .reply = 1) ∨ (s.st ≠ .shutDown ∧ .reply ∉ s.log)

theorem continue_one {c : Cfg} {env : Env} {s s' : State} (h : shutdownContinue c env s = .ok s') (hn : .reply ∉ s.log) : One s' := by
  unfold shutdownContinue at h
  split at h
  · rename_i hst
    split at h
    · simp at h
    · rename_i s1 e
      have k := pass_keep _ _ _ _ e
      unfold finish at h
      split at h
      · injection h with h; subst h
        have : .reply ∉ s1.log := fun hm => hn (k.2.1 hm)
        exact .inl ⟨rfl, by simp [List.count_eq_zero.2 this]⟩
      · simp at h
    · rename_i s1 e
      have k := pass_keep _ _ _ _ e
      injection h with h; subst h
      exact .inr ⟨by rw [k.2.2, hst]; simp, fun hm => hn (k.2.1 hm)⟩
  · simp at h

theorem One.log {s s' : State} (h : One s) (hs : s'.st = s.st) (hl : s'.log = s.log ∨ ∃ e, e ≠ .reply ∧ s'.log = e :: s.log) : One s' := by
  rcases hl with hl | ⟨e, hne, hl⟩
  · unfold One; rw [hs, hl]; exact h
  · rcases h with ⟨a, b⟩ | ⟨a, b⟩
    · left; rw [hs, hl]; exact ⟨a, by simp [hne, b]⟩
    · right; rw [hs, hl]; exact ⟨a, by simp [b, Ne.symm hne]⟩

theorem forget_one {c : Cfg} {env : Env} {p : Nat} {x : Sub} {s s' : State} (h : forget c env p x s = .ok s') (ho : One s) : One s' := by
  unfold forget at h
  simp only [] at h
  split at h
  · split at h
    · rename_i hst
      split at h
      · simp at h
      · rename_i s3 e
        injection h with h; subst h
        have hn : Ev.reply ∉ s.log := (ho.resolve_left (fun g => by rw [hst] at g; simp at g)).2
        exact (continue_one e (by simpa using hn)).log rfl (.inl rfl)
    · injection h with h; subst h; exact ho.log rfl (.inr ⟨_, by simp, rfl⟩)
  · injection h with h; subst h; exact ho.log rfl (.inr ⟨_, by simp, rfl⟩)

theorem base_one {p : Nat} {s s' : State} (h : baseDeactivate p s = .ok s') (ho : One s) : One s' := by
  refine ho.log ?_ (.inl (keep_base h).2)
  unfold baseDeactivate at h
  repeat' split at h
  all_goals first
    | (simp at h; done)
    | (injection h with h; subst h; first | rfl | exact (frame_markAll _ _).st)

theorem step_one {c : Cfg} {env : Env} {op : Op} {s s' : State} (h : step c env s op = .ok s') (ho : One s) : One s' := by
  have sub : ∀ {b e : Bool}, subscribe c b e s = .ok s' → One s' := by
    intro b e he
    unfold subscribe at he
    simp only [] at he
    split at he
    · simp at he
    · injection he with he; subst he
      refine ho.log (by split <;> rfl) (.inr ⟨.made ⟨if b = true then some c.starter else none, true, s.next, e⟩, by simp, by split <;> rfl⟩)
  have mk : ∀ x, One (mark x s) := fun x => by
    unfold mark
    split
    · exact ho
    · exact ho.log rfl (.inl rfl)
  have cont : ∀ {t : State}, shutdownContinue c env t = .ok s' → t.log = s.log → s.st ≠ .shutDown → One s' := fun e hl hs =>
    continue_one e (by rw [hl]; exact (ho.resolve_left (fun g => hs g.1)).2)
  cases op with
  | request =>
    simp only [step] at h
    split at h
    · rename_i hr
      exact cont h rfl (by intro e; rw [e] at hr; simp [AState.rank] at hr)
    · simp at h
  | cont p =>
    simp only [step] at h
    split at h
    · rename_i hr
      exact cont h rfl (by rw [hr.1]; simp)
    · simp at h
  | join p =>
    simp only [step] at h
    split at h
    · injection h with h; subst h; exact ho.log rfl (.inl rfl)
    · simp at h
  | confirm =>
    simp only [step, confirm] at h
    split at h
    · injection h with h; subst h; exact ho
    · rename_i x rest hq
      have ho1 : One { s with queue := rest } := ho.log rfl (.inl rfl)
      repeat' split at h
      all_goals first
        | (simp at h; done)
        | exact forget_one h ho1
        | (injection h with h; subst h; exact ho1)
        | skip
      unfold forgetAnon at h
      simp only [] at h
      repeat' split at h
      all_goals first
        | (simp at h; done)
        | exact base_one h (ho1.log rfl (.inr ⟨.removed x, by simp, rfl⟩))
        | (injection h with h; subst h; exact ho1.log rfl (.inr ⟨.removed x, by simp, rfl⟩))
  | subscribe b e =>
    simp only [step] at h
    split at h
    · exact sub h
    · simp at h
  | unsubscribe x =>
    simp only [step] at h
    split at h
    · injection h with h; subst h; exact mk x
    · simp at h
  | lateSubscribe b e =>
    simp only [step] at h
    split at h
    · exact sub h
    · simp at h
  | lateUnsubscribe x =>
    simp only [step] at h
    split at h
    · split at h
      · simp at h
      · injection h with h; subst h; exact mk x
    · simp at h

theorem run_one {c : Cfg} {env : Env} : ∀ (ops : List Op) (s s' : State), run c env s ops = .ok s' → One s → One s'
  | [], s, s', h, g => by simp [run] at h; subst h; exact g
  | op :: ops, s, s', h, g => by
    simp only [run] at h
    split at h
    · simp at h
    · rename_i s1 e
      exact run_one ops _ _ h (step_one e g)

/-- **C32**. The shutdown request is replied to once at most, and when it is, the actor is shut down and stays so. -/
theorem C32_one_reply (c : Cfg) (env : Env) (ops : List Op) (s : State) (h : run c env (State.init c) ops = .ok s) :
    s.log.count .reply ≤ 1 ∧ (.reply ∈ s.log ↔ s.st = .shutDown) := by
  rcases run_one ops _ s h (.inr ⟨by simp [State.init], by simp [State.init]⟩) with ⟨a, b⟩ | ⟨a, b⟩
  · exact ⟨by omega, ⟨fun _ => a, fun _ => List.count_pos_iff.1 (by omega)⟩⟩
  · exact ⟨by rw [List.count_eq_zero.2 b]; omega, ⟨fun hm => absurd hm b, fun e => absurd e a⟩⟩

/-! ## cases -/

def replies (r : Except Err State) : Option (AState × Nat × List Sub) :=
  match r with
  | .ok s => some (s.st, s.log.count .reply, s.log.filterMap (fun e => match e with | .removed x => some x | _ => none))
  | .error _ => none

example : (replies (run demo agree (State.init demo) demoOps)).map (fun r => (r.1, r.2.1)) = some (.shutDown, 1) := by decide
/-- before the request one subscription of the user has been undone; a plugin that does not agree stops the shutdown -/
example : replies (run demo agree (State.init demo) (demoOps.take 5)) = some (.operational, 0, [⟨some 5, true, 0, false⟩]) := by decide
example : replies (run demo (fun _ => false) (State.init demo) (demoOps.take 9)) = some (.shuttingDown, 0, [⟨some 5, true, 0, false⟩]) := by decide

end Verif.Lifetime
