import Verif.Drain.Props

/-!
# C78: when destroying supervisors is safe
-/

namespace Verif.Drain

/-- everybody is there who may be needed -/
def Ready (c : Cfg) (σ : State) : Prop :=
  ∀ m s, Wrapped σ m s → σ.route m = true →
    m < σ.next ∧ σ.phase s = .alive ∧ σ.phase (c.box s) = .alive ∧ (c.locks = true → σ.closing (c.root s) = false)

/-- fewer calls, fewer routes -/
theorem Ready.less {c : Cfg} {σ σ' : State} (h : Ready c σ) (hn : σ'.next = σ.next) (hp : σ'.phase = σ.phase) (hc : σ'.closing = σ.closing)
    (hw : ∀ m s, Wrapped σ' m s → Wrapped σ m s) (hr : ∀ m, σ'.route m = true → σ.route m = true) : Ready c σ' := by
  intro m s k1 k2
  rw [hn, hp, hc]
  exact h m s (hw m s k1) (hr m k2)

theorem upd_false {f : Nat → Bool} {i m : Nat} (h : upd f i false m = true) : f m = true := by
  simp only [upd] at h
  split at h
  · simp at h
  · exact h

theorem wrapped_inb {σ : State} {l m s : Nat} {e : Msg} (h : Wrapped { σ with inb := σ.inb.erase (l, e) } m s) : Wrapped σ m s := by
  obtain ⟨b, h | h | h⟩ := h
  · exact ⟨b, .inl (List.mem_of_mem_erase h)⟩
  · exact ⟨b, .inr (.inl h)⟩
  · exact ⟨b, .inr (.inr h)⟩

theorem wrapped_queue {σ : State} {l m s : Nat} {e : Msg} (h : Wrapped { σ with queue := σ.queue.erase (l, e) } m s) : Wrapped σ m s := by
  obtain ⟨b, h | h | h⟩ := h
  · exact ⟨b, .inl h⟩
  · exact ⟨b, .inr (.inl (List.mem_of_mem_erase h))⟩
  · exact ⟨b, .inr (.inr h)⟩

theorem wrapped_cur {σ : State} {l m s : Nat} {e : Msg} (h : Wrapped { σ with cur := σ.cur.erase (l, e) } m s) : Wrapped σ m s := by
  obtain ⟨b, h | h | h⟩ := h
  · exact ⟨b, .inl h⟩
  · exact ⟨b, .inr (.inl h)⟩
  · exact ⟨b, .inr (.inr (List.mem_of_mem_erase h))⟩

theorem release_ready {c : Cfg} {m : Nat} {σ : State} (h : Ready c σ) : Ready c (release m σ) := by
  simp only [release]
  split
  · exact h
  · exact h

/-- a call goes away whose supervisor is there -/
theorem drop_ready {c : Cfg} {e : Msg} {σ : State} (h : Ready c σ)
    (hc : ∀ m s, e = .call m s → σ.route m = true → σ.phase s = .alive ∧ σ.phase (c.box s) = .alive ∧ (c.locks = true → σ.closing (c.root s) = false)) :
    ∃ σ', drop c e σ = .ok σ' ∧ Ready c σ' ∧ σ'.phase = σ.phase ∧ σ'.closing = σ.closing ∧ σ'.queue = σ.queue ∧
      (σ'.inb = σ.inb ∨ ∃ m s, e = .call m s ∧ σ'.inb = σ.inb ++ [(c.box s, .plain m)] ∧ σ.phase (c.box s) = .alive) := by
  cases e with
  | plain m =>
    refine ⟨_, rfl, release_ready h, ?_⟩
    simp only [release]
    split <;> simp
  | call m s =>
    simp only [drop]
    by_cases hr : σ.route m = true ∧ refs σ m = 0
    · rw [if_pos hr]
      obtain ⟨k1, k2, k3⟩ := hc m s rfl hr.1
      refine ⟨{ σ with route := upd σ.route m false, inb := σ.inb ++ [(c.box s, .plain m)], log := .hop m :: σ.log }, ?_, ?_, rfl, rfl, rfl, ?_⟩
      · simp only [hop, k1]
        rw [if_neg (by simp [k2]), if_neg]
        intro k
        rw [k3 k.1] at k
        simp at k
      · refine h.less rfl rfl rfl ?_ (fun x hx => upd_false hx)
        rintro x y ⟨b, k | k | k⟩
        · simp only [List.mem_append, List.mem_singleton, Prod.mk.injEq, reduceCtorEq, and_false, or_false] at k
          exact ⟨b, .inl k⟩
        · exact ⟨b, .inr (.inl k)⟩
        · exact ⟨b, .inr (.inr k)⟩
      · exact .inr ⟨m, s, rfl, rfl, k2⟩
    · rw [if_neg hr]
      refine ⟨_, rfl, release_ready h, ?_⟩
      simp only [release]
      split <;> simp

theorem step_ready {c : Cfg} {σ : State} {op : Op} (hi : Inv σ) (h : Ready c σ) (hq : Calm c σ op) :
    (∃ σ', step c σ op = .ok σ' ∧ Ready c σ') ∨ step c σ op = .error .illegal := by
  cases op with
  | send s r =>
    simp only [step]
    split
    · refine .inl ⟨_, rfl, ?_⟩
      rintro m x ⟨b, k⟩ hr
      have k' : Wrapped σ m x := by
        rcases k with k | k | k
        · simp only [List.mem_append, List.mem_singleton, Prod.mk.injEq, reduceCtorEq, and_false, or_false] at k
          exact ⟨b, .inl k⟩
        · exact ⟨b, .inr (.inl k)⟩
        · exact ⟨b, .inr (.inr k)⟩
      have hne : m ≠ σ.next := by
        intro e
        subst e
        have hz := refs_zero.1 (hi.core.lt σ.next (Nat.le_refl _))
        obtain ⟨b, k | k | k⟩ := k'
        · exact hz.2.1 _ k rfl
        · exact hz.2.2.1 _ k rfl
        · exact hz.2.2.2 _ k rfl
      simp only [upd, if_neg hne] at hr
      have := h m x k' hr
      exact ⟨by simp only; omega, this.2⟩
    · exact .inr rfl
  | move l =>
    simp only [step]
    split
    · rename_i e hf
      split
      · refine .inl ⟨_, rfl, h.less rfl rfl rfl ?_ (fun _ hx => hx)⟩
        rintro m s ⟨b, k | k | k⟩
        · exact ⟨b, .inl (List.mem_of_mem_erase k)⟩
        · simp only [List.mem_append, List.mem_singleton, Prod.mk.injEq] at k
          rcases k with k | k
          · exact ⟨b, .inr (.inl k)⟩
          · refine ⟨b, .inl ?_⟩
            rw [k.1, k.2]; exact first_mem hf
        · exact ⟨b, .inr (.inr k)⟩
      · exact .inr rfl
    · exact .inr rfl
  | take l =>
    simp only [step]
    split
    · rename_i e hf
      split
      · refine .inl ⟨_, rfl, h.less rfl rfl rfl ?_ (fun _ hx => hx)⟩
        rintro m s ⟨b, k | k | k⟩
        · exact ⟨b, .inl k⟩
        · exact ⟨b, .inr (.inl (List.mem_of_mem_erase k))⟩
        · simp only [List.mem_cons, Prod.mk.injEq] at k
          rcases k with k | k
          · refine ⟨b, .inr (.inl ?_)⟩
            rw [k.1, k.2]; exact first_mem hf
          · exact ⟨b, .inr (.inr k)⟩
      · exact .inr rfl
    · exact .inr rfl
  | wrap l s =>
    simp only [step]
    split
    · rename_i m hf
      split
      · rename_i ha
        refine .inl ⟨_, rfl, ?_⟩
        rintro x y ⟨b, k⟩ hr
        rcases k with k | k | k
        · simp only [List.mem_append, List.mem_singleton, Prod.mk.injEq, Msg.call.injEq] at k
          rcases k with k | k
          · exact h x y ⟨b, .inl k⟩ hr
          · obtain ⟨_, k1, k2⟩ := k
            subst k1; subst k2
            refine ⟨?_, ha.1, ha.2.1, fun _ => ha.2.2⟩
            rcases Nat.lt_or_ge x σ.next with h1 | h1
            · exact h1
            · exact absurd (hi.core.lt x h1) (cur_ne hf)
        · exact h x y ⟨b, .inr (.inl k)⟩ hr
        · exact h x y ⟨b, .inr (.inr k)⟩ hr
      · exact .inr rfl
    · exact .inr rfl
  | keep l =>
    simp only [step]
    split
    · exact .inl ⟨_, rfl, h.less rfl rfl rfl (fun _ _ k => k) (fun _ hx => hx)⟩
    · exact .inr rfl
  | forget m =>
    simp only [step]
    split
    · exact .inl ⟨_, rfl, release_ready (h.less rfl rfl rfl (fun _ _ k => k) (fun _ hx => hx))⟩
    · exact .inr rfl
  | done l =>
    simp only [step]
    split
    · rename_i e hf
      have h' : Ready c { σ with cur := σ.cur.erase (l, e) } := h.less rfl rfl rfl (fun _ _ k => wrapped_cur k) (fun _ hx => hx)
      cases e with
      | plain m =>
        simp only
        split
        · refine .inl ⟨_, rfl, h'.less rfl rfl rfl ?_ (fun _ hx => upd_false hx)⟩
          rintro x y ⟨b, k | k | k⟩
          · exact ⟨b, .inl k⟩
          · simp only [List.mem_append, List.mem_singleton, Prod.mk.injEq, reduceCtorEq, and_false, or_false] at k
            exact ⟨b, .inr (.inl k)⟩
          · exact ⟨b, .inr (.inr k)⟩
        · exact .inl ⟨_, rfl, release_ready h'⟩
      | call m s =>
        obtain ⟨σ', k1, k2, _⟩ := drop_ready (e := .call m s) h' (fun x y e hr => by
          simp only [Msg.call.injEq] at e
          obtain ⟨e1, e2⟩ := e
          subst e1; subst e2
          exact (h m s ⟨l, .inr (.inr (first_mem hf))⟩ hr).2)
        exact .inl ⟨σ', k1, k2⟩
    · exact .inr rfl
  | destroy s =>
    simp only [step]
    split
    · refine .inl ⟨_, rfl, ?_⟩
      intro m x k hr
      have q := hq m x k hr
      have := h m x k hr
      simp only [upd, if_neg q.1, if_neg q.2]
      exact this
    · exact .inr rfl
  | pop s =>
    simp only [step]
    split
    · split
      · rename_i e hf
        obtain ⟨σ', k1, k2, _⟩ := drop_ready (c := c) (e := e) (h.less (σ' := { σ with inb := σ.inb.erase (s, e) }) rfl rfl rfl (fun _ _ k => wrapped_inb k) (fun _ hx => hx))
          (fun x y e' hr => (h x y ⟨s, .inl (by rw [← e']; exact first_mem hf)⟩ hr).2)
        exact .inl ⟨σ', k1, k2⟩
      · split
        · rename_i e hf
          obtain ⟨σ', k1, k2, _⟩ := drop_ready (c := c) (e := e) (h.less (σ' := { σ with queue := σ.queue.erase (s, e) }) rfl rfl rfl (fun _ _ k => wrapped_queue k) (fun _ hx => hx))
            (fun x y e' hr => (h x y ⟨s, .inr (.inl (by rw [← e']; exact first_mem hf))⟩ hr).2)
          exact .inl ⟨σ', k1, k2⟩
        · exact .inr rfl
    · exact .inr rfl
  | finish s =>
    simp only [step]
    split
    · rename_i ha
      refine .inl ⟨_, rfl, ?_⟩
      intro m x k hr
      have := h m x k hr
      have n1 : x ≠ s := by intro e; subst e; rw [ha.1] at this; simp at this
      have n2 : c.box x ≠ s := by intro e; rw [e, ha.1] at this; simp at this
      simp only [upd, if_neg n1, if_neg n2]
      exact this
    · exact .inr rfl
  | close r =>
    refine .inl ⟨_, rfl, ?_⟩
    intro m x k hr
    have := h m x k hr
    refine ⟨this.1, this.2.1, this.2.2.1, fun hl => ?_⟩
    have q := hq hl m x k hr
    simp only [upd, if_neg q]
    exact this.2.2.2 hl
  | drain r =>
    simp only [step]
    split
    · split
      · rename_i e hf
        obtain ⟨σ', k1, k2, _⟩ := drop_ready (c := c) (e := e) (h.less (σ' := { σ with inb := σ.inb.erase (r, e) }) rfl rfl rfl (fun _ _ k => wrapped_inb k) (fun _ hx => hx))
          (fun x y e' hr => (h x y ⟨r, .inl (by rw [← e']; exact first_mem hf)⟩ hr).2)
        exact .inl ⟨σ', k1, k2⟩
      · exact .inr rfl
    · exact .inr rfl

theorem run_ready {c : Cfg} : ∀ (ops : List Op) (σ : State), Inv σ → Ready c σ → Along c (Calm c) σ ops →
    (∃ σ', run c σ ops = .ok σ' ∧ Ready c σ') ∨ run c σ ops = .error .illegal := by
  intro ops
  induction ops with
  | nil => intro σ _ h _; exact .inl ⟨σ, rfl, h⟩
  | cons op ops ih =>
    intro σ hi h ha
    simp only [Along] at ha
    simp only [run]
    rcases step_ready hi h ha.1 with ⟨σ1, g1, g2⟩ | g
    · have ha2 := ha.2
      rw [g1] at ha2 ⊢
      exact ih σ1 (step_inv hi g1) g2 ha2
    · rw [g]; exact .inr rfl

theorem init_ready (c : Cfg) : Ready c State.init := by
  rintro m s ⟨b, k | k | k⟩ <;> simp [State.init] at k

/-- **C78** If, when a supervisor (or a context whose `enqueue` locks a mutex) begins to be destroyed, no wrapped call of a message with a second destination is left for
actors of supervisors that would have to send it on through it, then nothing that has been destroyed is used, whatever else is in the queues
and in whatever order supervisors and contexts are destroyed.

Missing for the full statement: the condition. Without it: `C78_pure_virtual_counterexample`, `C78_dangling_counterexample`, `C78_mutex_counterexample`. -/
theorem C78_no_fault_partial (c : Cfg) (ops : List Op) (ha : Along c (Calm c) State.init ops) (e : Err) (h : run c State.init ops = .error e) :
    e = .illegal := by
  rcases run_ready ops _ init_inv (init_ready c) ha with ⟨σ, g, _⟩ | g
  · rw [g] at h; simp at h
  · rw [g] at h; simp only [Except.error.injEq] at h; exact h.symm

theorem unrouted_calm {c : Cfg} : ∀ (ops : List Op) (σ : State), (∀ s, .send s true ∉ ops) → (∀ m, σ.route m = false) → Along c (Calm c) σ ops := by
  intro ops
  induction ops with
  | nil => intro σ _ _; trivial
  | cons op ops ih =>
    intro σ hs hr
    have hcalm : Calm c σ op := by
      cases op with
      | destroy s => intro m x _ h; rw [hr m] at h; simp at h
      | close r => intro _ m x _ h; rw [hr m] at h; simp at h
      | _ => trivial
    refine ⟨hcalm, ?_⟩
    split
    · rename_i σ1 h1
      refine ih σ1 (fun s k => hs s (List.mem_cons_of_mem _ k)) ?_
      have hrel : ∀ m τ, (∀ x, τ.route x = false) → ∀ x, (release m τ).route x = false := by
        intro m τ h x
        simp only [release]
        split <;> exact h x
      have hdrop : ∀ e τ τ', drop c e τ = .ok τ' → (∀ x, τ.route x = false) → ∀ x, τ'.route x = false := by
        intro e τ τ' hd h
        cases e with
        | plain m => simp only [drop, Except.ok.injEq] at hd; subst hd; exact hrel m τ h
        | call m s =>
          simp only [drop] at hd
          rw [if_neg (by rw [h m]; simp)] at hd
          simp only [Except.ok.injEq] at hd; subst hd; exact hrel m τ h
      cases op with
      | send s r =>
        simp only [step] at h1
        split at h1
        · simp only [Except.ok.injEq] at h1; subst h1
          intro x
          simp only [upd]
          split
          · cases r with
            | false => rfl
            | true => exact absurd List.mem_cons_self (hs s)
          · exact hr x
        · simp at h1
      | done l =>
        simp only [step] at h1
        split at h1
        · rename_i e hf
          cases e with
          | plain m =>
            simp only at h1
            rw [if_neg (by rw [hr m]; simp)] at h1
            simp only [Except.ok.injEq] at h1; subst h1
            exact hrel _ _ hr
          | call m s => exact hdrop _ _ _ h1 hr
        · simp at h1
      | forget m =>
        simp only [step] at h1
        split at h1
        · simp only [Except.ok.injEq] at h1; subst h1; exact hrel _ _ hr
        · simp at h1
      | pop s =>
        simp only [step] at h1
        split at h1
        · split at h1
          · exact hdrop _ _ _ h1 hr
          · split at h1
            · exact hdrop _ _ _ h1 hr
            · simp at h1
        · simp at h1
      | drain r =>
        simp only [step] at h1
        split at h1
        · split at h1
          · exact hdrop _ _ _ h1 hr
          · simp at h1
        · simp at h1
      | move l =>
        simp only [step] at h1
        split at h1
        · split at h1
          · simp only [Except.ok.injEq] at h1; subst h1; exact hr
          · simp at h1
        · simp at h1
      | take l =>
        simp only [step] at h1
        split at h1
        · split at h1
          · simp only [Except.ok.injEq] at h1; subst h1; exact hr
          · simp at h1
        · simp at h1
      | wrap l s =>
        simp only [step] at h1
        split at h1
        · split at h1
          · simp only [Except.ok.injEq] at h1; subst h1; exact hr
          · simp at h1
        · simp at h1
      | keep l =>
        simp only [step] at h1
        split at h1
        · simp only [Except.ok.injEq] at h1; subst h1; exact hr
        · simp at h1
      | destroy s =>
        simp only [step] at h1
        split at h1
        · simp only [Except.ok.injEq] at h1; subst h1; exact hr
        · simp at h1
      | finish s =>
        simp only [step] at h1
        split at h1
        · simp only [Except.ok.injEq] at h1; subst h1; exact hr
        · simp at h1
      | close r =>
        simp only [step, Except.ok.injEq] at h1; subst h1; exact hr
    · trivial

/-- Without messages that have a second destination supervisors and contexts may be destroyed at any time. -/
theorem C78_unrouted (c : Cfg) (ops : List Op) (hs : ∀ s, .send s true ∉ ops) (e : Err) (h : run c State.init ops = .error e) : e = .illegal :=
  C78_no_fault_partial c ops (unrouted_calm ops _ hs (fun _ => rfl)) e h

end Verif.Drain
