import Verif.Lifetime.Props

/-!
# C59: what keeps an actor in memory

A subscription holds a handler and the handler holds its actor (`handler.cpp:33-38`), so as long as one of the lists below has an
entry the actor is not destroyed. The lists of the plugins and of the lifetime plugin are parts of the actor itself: an entry that
is not removed is a cycle, and the actor would never be destroyed.
-/

namespace Verif.Lifetime
open Verif

/-- the entries of the lists with a handler of the actor: the table of the supervisor, `lifetime_plugin_t::points`,
`own_subscriptions` of the plugins, and the unsubscription messages on their way -/
def held (c : Cfg) (s : State) : Nat :=
  s.live.length + s.points.length + s.queue.length + ((List.range c.n).map (fun p => (s.own p).length)).sum

theorem run_snoc {c : Cfg} {env : Env} {op : Op} : ∀ {ops : List Op} {s s1 s2 : State}, run c env s ops = .ok s1 → step c env s1 op = .ok s2 →
    run c env s (ops ++ [op]) = .ok s2 := by
  intro ops
  induction ops with
  | nil => intro s s1 s2 h1 h2; simp only [run, Except.ok.injEq] at h1; subst h1; simp only [List.nil_append, run, h2]
  | cons o ops ih =>
    intro s s1 s2 h1 h2
    simp only [run, List.cons_append] at h1 ⊢
    cases h3 : step c env s o with
    | error e => rw [h3] at h1; simp at h1
    | ok s3 => rw [h3] at h1; exact ih h1 h2

/-- **C59**. Whatever the plugins answer, and whatever the user does at whatever time: when the actor has shut down, its subscriptions
are in no list: not in the table, not in those of its own plugins (no cycle is left); -/
theorem C59_released (c : Cfg) (env : Env) (ops : List Op) (s : State) (h : run c env (State.init c) ops = .ok s)
    (hd : s.st = .shutDown) : s.live = [] ∧ s.points = [] ∧ (∀ p, s.own p = []) ∧ held c s = s.queue.length := by
  have hi := run_inv c env ops _ s (init_inv c) h
  obtain ⟨h1, _, h2⟩ := hi.all.dn hd
  have h3 : ∀ p, s.own p = [] := fun p => List.eq_nil_iff_forall_not_mem.2 fun x hx => by
    have := hi.k.ol p x hx
    rw [h1] at this; simp at this
  refine ⟨h1, h2, h3, ?_⟩
  have : (List.range c.n).map (fun p => (s.own p).length) = (List.range c.n).map (fun _ => 0) :=
    List.map_congr_left fun p _ => by rw [h3 p]; rfl
  rw [held, h1, h2, this]
  have : ∀ n, ((List.range n).map (fun _ => 0)).sum = 0 := fun n => by
    induction n with
    | zero => rfl
    | succ n ih => rw [List.range_succ, List.map_append, List.sum_append, ih]; rfl
  rw [this]; simp

/-- after the messages that are still on their way nothing holds it -/
theorem C59_drained (c : Cfg) (env : Env) (ops : List Op) (s : State) (h : run c env (State.init c) ops = .ok s)
    (hd : s.st = .shutDown) : ∃ s', run c env s (List.replicate s.queue.length .confirm) = .ok s' ∧ s'.st = .shutDown ∧ held c s' = 0 := by
  generalize hn : s.queue.length = n
  induction n generalizing ops s with
  | zero => exact ⟨s, rfl, hd, by rw [(C59_released c env ops s h hd).2.2.2, hn]⟩
  | succ n ih =>
    have h1 := (C59_released c env ops s h hd).1
    match hq : s.queue, hn with
    | x :: rest, hn =>
      have hs : step c env s .confirm = .ok { s with queue := rest } := by
        simp only [step, confirm, hq, h1, List.not_mem_nil, if_false, ite_self]
      have hr : run c env (State.init c) (ops ++ [.confirm]) = .ok { s with queue := rest } := by
        exact run_snoc h hs
      obtain ⟨s', k1, k2⟩ := ih _ _ hr hd (by simpa using hn)
      refine ⟨s', ?_, k2⟩
      simp only [List.replicate_succ, run, hs]
      exact k1

/-- Not before: as long as the actor has not shut down, its subscription to the unsubscription messages is in the table
(the actor cannot be destroyed while it waits for them). -/
theorem C59_kept (c : Cfg) (env : Env) (ops : List Op) (s : State) (h : run c env (State.init c) ops = .ok s)
    (hc : ∀ op ∈ ops, op.clean = true) (hd : s.st ≠ .shutDown) : hInt c ∈ s.live ∧ 0 < held c s := by
  have key : hInt c ∈ s.live := by
    rcases run_good c env ops _ (.inl (init_good c)) hc with ⟨s1, g1, g2⟩ | g
    · rw [g1] at h
      simp only [Except.ok.injEq] at h
      subst h
      rcases g2 with g | g | ⟨g, _⟩
      · have h1 := (g.core c.life (life_lt c) (hInt c) (by rw [core_life]; simp)).1
        exact (g.com.loS _ _ rfl).2 h1
      · refine (g.b.com.loS _ _ rfl).2 ?_
        rcases g.l with ⟨l, _⟩ | ⟨⟨_, _, l1, ⟨t, l2⟩, _⟩, _⟩
        · rw [l.1, core_life]; simp
        · match ho : s1.own c.life, l1, l2 with
          | x :: l, _, l2 =>
            rw [core_life, List.cons_append, List.cons.injEq] at l2
            rw [← l2.1]; simp
      · exact absurd g.st hd
    · rw [g] at h; simp at h
  refine ⟨key, ?_⟩
  have := List.length_pos_of_mem key
  simp only [held]; omega

/-- no plugin is being deactivated in the end -/
def Done (s : State) : Prop := s.st = .shutDown → s.deact = []

theorem mark_done {x : Sub} {s : State} (h : Done s) : Done (mark x s) := by
  simp only [mark]
  split
  · exact h
  · exact h

theorem markAll_done : ∀ (l : List Sub) (s : State), Done s → Done (markAll l s) := by
  intro l
  induction l with
  | nil => intro s h; exact h
  | cons x l ih => intro s h; exact ih _ (mark_done h)

theorem base_done {p : Nat} {s s' : State} (h : Done s) (he : baseDeactivate p s = .ok s') : Done s' := by
  simp only [baseDeactivate] at he
  split at he
  · split at he
    · simp only [Except.ok.injEq] at he; subst he
      intro hs
      have hd : s.deact = [] := h hs
      simp only [hd, List.erase_nil]
    · split at he
      · simp at he
      · simp only [Except.ok.injEq] at he; subst he; exact markAll_done _ _ h
  · simp only [Except.ok.injEq] at he; subst he; exact h

theorem continue_done {c : Cfg} {env : Env} {s s' : State} (he : shutdownContinue c env s = .ok s') : Done s' := by
  simp only [shutdownContinue] at he
  split at he
  · rename_i hst
    split at he
    · simp at he
    · simp only [finish] at he
      split at he
      · rename_i hd
        simp only [Except.ok.injEq] at he; subst he
        exact fun _ => hd
      · simp at he
    · rename_i s1 hp
      simp only [Except.ok.injEq] at he; subst he
      intro hs
      rw [(pass_keep _ _ _ _ hp).2.2, hst] at hs
      simp at hs
  · simp at he

theorem forget_done {c : Cfg} {env : Env} {p : Nat} {x : Sub} {s s' : State} (h : Done s) (he : forget c env p x s = .ok s') : Done s' := by
  simp only [forget] at he
  split at he
  · split at he
    · split at he
      · simp at he
      · rename_i hc
        simp only [Except.ok.injEq] at he; subst he
        have k := continue_done hc
        exact k
    · simp only [Except.ok.injEq] at he; subst he
      intro hs
      have hd : s.deact = [] := h hs
      simp only [hd, List.erase_nil]
  · simp only [Except.ok.injEq] at he; subst he; exact h

theorem subscribe_done {c : Cfg} {b e : Bool} {s s' : State} (h : Done s) (he : subscribe c b e s = .ok s') : Done s' := by
  simp only [subscribe] at he
  split at he
  · simp at he
  · simp only [Except.ok.injEq] at he; subst he
    split <;> exact h

theorem step_done {c : Cfg} {env : Env} {s s' : State} {op : Op} (h : Done s) (he : step c env s op = .ok s') : Done s' := by
  cases op with
  | request =>
    simp only [step] at he
    split at he
    · exact continue_done he
    · simp at he
  | cont p =>
    simp only [step] at he
    split at he
    · exact continue_done he
    · simp at he
  | join p =>
    simp only [step] at he
    split at he
    · simp only [Except.ok.injEq] at he; subst he; exact h
    · simp at he
  | confirm =>
    simp only [step, confirm] at he
    split at he
    · simp only [Except.ok.injEq] at he; subst he; exact h
    · rename_i x rest hq
      have h1 : Done { s with queue := rest } := h
      split at he
      · split at he
        · split at he
          · exact forget_done h1 he
          · simp at he
        · simp only [Except.ok.injEq] at he; subst he; exact h1
      · split at he
        · split at he
          · simp only [forgetAnon] at he
            split at he
            · split at he
              · exact base_done (s := { s with queue := rest, points := s.points.erase x, live := s.live.erase x, log := .removed x :: s.log }) h he
              · simp only [Except.ok.injEq] at he; subst he; exact h
            · simp at he
          · split at he
            · exact forget_done h1 he
            · simp only [Except.ok.injEq] at he; subst he; exact h1
        · simp only [Except.ok.injEq] at he; subst he; exact h1
  | subscribe b e =>
    simp only [step] at he
    split at he
    · exact subscribe_done h he
    · simp at he
  | unsubscribe x =>
    simp only [step] at he
    split at he
    · simp only [Except.ok.injEq] at he; subst he; exact mark_done h
    · simp at he
  | lateSubscribe b e =>
    simp only [step] at he
    split at he
    · exact subscribe_done h he
    · simp at he
  | lateUnsubscribe x =>
    simp only [step] at he
    split at he
    · split at he
      · simp at he
      · simp only [Except.ok.injEq] at he; subst he; exact mark_done h
    · simp at he

theorem run_done {c : Cfg} {env : Env} : ∀ (ops : List Op) (s s' : State), Done s → run c env s ops = .ok s' → Done s' := by
  intro ops
  induction ops with
  | nil => intro s s' h he; simp only [run, Except.ok.injEq] at he; subst he; exact h
  | cons op ops ih =>
    intro s s' h he
    simp only [run] at he
    split at he
    · simp at he
    · rename_i s1 h1
      exact ih _ _ (step_done h h1) he

/-- More: until then the lifetime plugin itself holds that subscription, and thereby the actor of which it is a part. So an actor that was given up
in the middle of its shutdown stays in memory, even when its supervisor with the table is gone; it is not destroyed while its plugins are being
deactivated, and the assertion of the destructor (`actor_base.cpp:31`) does not fail. -/
theorem C59_deactivating (c : Cfg) (env : Env) (ops : List Op) (s : State) (h : run c env (State.init c) ops = .ok s)
    (hc : ∀ op ∈ ops, op.clean = true) (hd : s.st ≠ .shutDown ∨ s.deact ≠ []) : hInt c ∈ s.own c.life := by
  have hdone := run_done ops _ _ (show Done (State.init c) from fun _ => rfl) h
  rcases run_good c env ops _ (.inl (init_good c)) hc with ⟨s1, g1, g2⟩ | g
  · rw [g1] at h
    simp only [Except.ok.injEq] at h
    subst h
    rcases g2 with g | g | ⟨g, _⟩
    · exact (g.core c.life (life_lt c) (hInt c) (by rw [core_life]; simp)).1
    · rcases g.l with ⟨l, _⟩ | ⟨⟨_, _, l1, ⟨t, l2⟩, _⟩, _⟩
      · rw [l.1, core_life]; simp
      · match ho : s1.own c.life, l1, l2 with
        | x :: l, _, l2 =>
          rw [core_life, List.cons_append, List.cons.injEq] at l2
          rw [← l2.1]; simp
    · rcases hd with hd | hd
      · exact absurd g.st hd
      · exact absurd (hdone g.st) hd
  · rw [g] at h; simp at h

/-! ## a case -/

def counts (r : Except Err State) : Option (AState × Nat) :=
  match r with
  | .ok s => some (s.st, held demo s)
  | .error _ => none

example : counts (run demo agree (State.init demo) []) = some (.operational, 30) := by decide
example : counts (run demo agree (State.init demo) demoOps) = some (.shutDown, 0) := by decide
example : counts (run demo agree (State.init demo) (demoOps.take 17)) = some (.shuttingDown, 3) := by decide

example : (match run demo agree (State.init demo) (demoOps.take 17) with | .ok s => decide (s.st = .shuttingDown ∧ s.deact ≠ []) | .error _ => false) = true := by decide

end Verif.Lifetime
