import Verif.Redirect.Model

/-!
# C62: a redirected message reaches the address it was redirected to
-/

namespace Verif.Redirect

/-- what was put into the queue, oldest first, with the address it was put for -/
def puts (s : St) : List (Nat × Addr) :=
  (s.log.filterMap fun e => match e with | .put m a => some (m, a) | _ => none).reverse

/-- what was dispatched, oldest first, with the address -/
def dispatched (s : St) : List (Nat × Addr) :=
  (s.log.filterMap fun e => match e with | .dispatch m a => some (m, a) | _ => none).reverse

/-- what is in the queue, with the address the objects have now -/
def waiting (s : St) : List (Nat × Addr) := s.queue.map fun m => (m, (s.heap m).addr)

/-- no message was redirected while it was in the queue -/
def NoClash (s : St) : Prop := ∀ m, .clash m ∉ s.log

/-- the state of the queue and of the log -/
structure Inv (s : St) : Prop where
  bound : ∀ m ∈ s.queue, m < s.fresh
  heldBound : ∀ m ∈ s.held, m < s.fresh
  order : NoClash s → puts s = dispatched s ++ waiting s

theorem waiting_assign {s : St} {m : Nat} {a : Addr} {n : Option Addr} (h : m ∉ s.queue) :
    waiting (assign s m a n) = waiting s := by
  simp only [waiting, assign]
  apply List.map_congr_left
  intro x hx
  have : x ≠ m := by rintro rfl; exact h hx
  simp [this]

theorem put_order {s : St} {m : Nat} (h : puts s = dispatched s ++ waiting s) :
    puts (put s m) = dispatched (put s m) ++ waiting (put s m) := by
  have h1 : puts (put s m) = puts s ++ [(m, (s.heap m).addr)] := by simp [puts, put]
  have h2 : dispatched (put s m) = dispatched s := by simp [dispatched, put]
  have h3 : waiting (put s m) = waiting s ++ [(m, (s.heap m).addr)] := by simp [waiting, put]
  rw [h1, h2, h3, h, List.append_assoc]

theorem inv_send {s : St} (a : Addr) (n : Option Addr) (h : Inv s) : Inv (send s a n) := by
  refine ⟨?_, ?_, ?_⟩
  · intro x hx
    simp only [send, put, assign, List.mem_append, List.mem_singleton] at hx ⊢
    rcases hx with hx | hx
    · have := h.bound x hx; omega
    · omega
  · intro x hx
    have := h.heldBound x hx
    simp only [send, put, assign]; omega
  · intro hc
    unfold send
    apply put_order
    have hc' : NoClash s := by
      intro x hx; exact hc x (by simp [send, put, assign, hx])
    have hnot : s.fresh ∉ s.queue := fun hh => absurd (h.bound _ hh) (Nat.lt_irrefl _)
    have := h.order hc'
    rw [← waiting_assign (a := a) (n := n) hnot] at this
    exact this

theorem inv_redirect {s : St} {m : Nat} (a : Addr) (n : Option Addr) (h : Inv s) (hm : m < s.fresh) :
    Inv (redirect s m a n) := by
  by_cases hq : m ∈ s.queue
  · refine ⟨?_, ?_, ?_⟩
    · intro x hx
      simp only [redirect, if_pos hq, put, assign, List.mem_append, List.mem_singleton] at hx ⊢
      rcases hx with hx | hx
      · exact h.bound x hx
      · omega
    · intro x hx
      simp only [redirect, if_pos hq, put, assign] at hx ⊢
      exact h.heldBound x hx
    · intro hc
      exact absurd (show Ev.clash m ∈ (redirect s m a n).log by simp [redirect, hq, put, assign]) (hc m)
  · refine ⟨?_, ?_, ?_⟩
    · intro x hx
      simp only [redirect, if_neg hq, put, assign, List.mem_append, List.mem_singleton] at hx ⊢
      rcases hx with hx | hx
      · exact h.bound x hx
      · omega
    · intro x hx
      simp only [redirect, if_neg hq, put, assign] at hx ⊢
      exact h.heldBound x hx
    · intro hc
      have hc' : NoClash s := by
        intro x hx; exact hc x (by simp [redirect, hq, put, assign, hx])
      simp only [redirect, if_neg hq]
      apply put_order
      have := h.order hc'
      rw [← waiting_assign (a := a) (n := n) hq] at this
      exact this

theorem inv_runOp {s : St} {m : Nat} (o : Op) (h : Inv s) (hm : m < s.fresh) :
    Inv (runOp m s o) ∧ m < (runOp m s o).fresh := by
  cases o with
  | send a n => exact ⟨inv_send a n h, by simp only [runOp, send, put, assign]; omega⟩
  | redirect a n =>
    refine ⟨inv_redirect a n h hm, ?_⟩
    simp only [runOp, redirect, put, assign]; split <;> exact hm
  | keep =>
    refine ⟨⟨h.bound, ?_, h.order⟩, hm⟩
    intro x hx
    simp only [runOp, List.mem_cons] at hx
    rcases hx with rfl | hx
    · exact hm
    · exact h.heldBound x hx
  | release x a n =>
    simp only [runOp]
    split
    · rename_i hx
      have hi : Inv { s with held := s.held.erase x } :=
        ⟨h.bound, fun y hy => h.heldBound y (List.mem_of_mem_erase hy), h.order⟩
      refine ⟨inv_redirect a n hi (h.heldBound x hx), ?_⟩
      simp only [redirect, put, assign]; split <;> exact hm
    · exact ⟨h, hm⟩
  | forget x =>
    exact ⟨⟨h.bound, fun y hy => h.heldBound y (List.mem_of_mem_erase hy), h.order⟩, hm⟩

theorem inv_ops {m : Nat} : ∀ (l : List Op) (s : St), Inv s → m < s.fresh →
    Inv (l.foldl (runOp m) s) ∧ m < (l.foldl (runOp m) s).fresh := by
  intro l
  induction l with
  | nil => intro s h hm; exact ⟨h, hm⟩
  | cons o r ih =>
    intro s h hm
    obtain ⟨h1, h2⟩ := inv_runOp o h hm
    exact ih _ h1 h2

theorem inv_called {s : St} {e : Handler} {m : Nat} (h : Inv s) : Inv { s with log := .call e m :: s.log } := by
  refine ⟨h.bound, h.heldBound, ?_⟩
  intro hc
  have := h.order (fun x hx => hc x (by simp [hx]))
  simpa [puts, dispatched, waiting] using this

theorem inv_calls {env : Env} {m : Nat} : ∀ (l : List Handler) (s : St), Inv s → m < s.fresh →
    Inv (l.foldl (call env m) s) ∧ m < (l.foldl (call env m) s).fresh := by
  intro l
  induction l with
  | nil => intro s h hm; exact ⟨h, hm⟩
  | cons o r ih =>
    intro s h hm
    obtain ⟨h1, h2⟩ := inv_ops (env o m s) _ (inv_called (e := o) (m := m) h) hm
    exact ih _ h1 h2

theorem inv_taken {s : St} {m : Nat} {q : List Nat} (h : Inv s) (hq : s.queue = m :: q) :
    Inv { s with queue := q, log := .dispatch m (s.heap m).addr :: s.log } := by
  refine ⟨fun x hx => h.bound x (by simp [hq, hx]), h.heldBound, ?_⟩
  intro hc
  have := h.order (fun x hx => hc x (by simp [hx]))
  simpa [puts, dispatched, waiting, hq] using this

theorem not_queued {s : St} {m : Nat} (h : useCount s m = 1) : m ∉ s.queue := by
  intro hh
  have : 0 < s.queue.count m := List.count_pos_iff.mpr hh
  simp only [useCount] at h
  omega

theorem inv_step {subs : Addr → List Handler} {env : Env} {s : St} (c : Act) (h : Inv s) :
    Inv (step subs env s c) := by
  cases c with
  | send a n => exact inv_send a n h
  | turn =>
    simp only [step, turn]
    split
    · exact h
    · rename_i m q hq
      have h1 := inv_taken h hq
      have hm : m < s.fresh := h.bound m (by simp [hq])
      obtain ⟨h2, hm2⟩ := inv_calls (env := env) (subs (s.heap m).addr) _ h1 hm
      split
      · exact h2
      · split
        · rename_i n hn hu
          have hnq := not_queued hu
          have := inv_redirect n none h2 hm2
          simp only [redirect, if_neg hnq] at this
          exact this
        · exact h2

theorem inv_run {subs : Addr → List Handler} {env : Env} (l : List Act) : Inv (run subs env l) := by
  have : ∀ (l : List Act) (s : St), Inv s → Inv (l.foldl (step subs env) s) := by
    intro l
    induction l with
    | nil => intro s h; exact h
    | cons c r ih => intro s h; exact ih _ (inv_step c h)
  exact this l init ⟨by simp [init], by simp [init], fun _ => rfl⟩

/-- **C62 (order).** For all subscriptions, handlers and executions: as long as no message is
redirected while it waits in the queue, the messages are dispatched in the order in which they
were sent, redirected or moved on to their next route, each once, and at the address it was
given then; what is left waits in the queue. -/
theorem C62_order_partial (subs : Addr → List Handler) (env : Env) (l : List Act)
    (h : NoClash (run subs env l)) :
    puts (run subs env l) = dispatched (run subs env l) ++ waiting (run subs env l) :=
  (inv_run l).order h

/-! ### Arrival -/

/-- the log only grows -/
def Ext (s s' : St) : Prop := ∃ x, s'.log = x ++ s.log

theorem Ext.refl (s : St) : Ext s s := ⟨[], rfl⟩
theorem Ext.trans {a b c : St} (h : Ext a b) (h' : Ext b c) : Ext a c := by
  obtain ⟨x, hx⟩ := h
  obtain ⟨y, hy⟩ := h'
  exact ⟨y ++ x, by rw [hy, hx, List.append_assoc]⟩

/-- how one operation changes queue and log: no dispatch, and the queue only grows -/
structure Grows (s s' : St) : Prop where
  ext : Ext s s'
  disp : dispatched s' = dispatched s
  queue : s.queue.length ≤ s'.queue.length

theorem Grows.refl (s : St) : Grows s s := ⟨.refl s, rfl, Nat.le_refl _⟩
theorem Grows.trans {a b c : St} (h : Grows a b) (h' : Grows b c) : Grows a c :=
  ⟨h.ext.trans h'.ext, h'.disp.trans h.disp, Nat.le_trans h.queue h'.queue⟩

theorem grows_put (s : St) (m : Nat) : Grows s (put s m) :=
  ⟨⟨[.put m (s.heap m).addr], rfl⟩, by simp [dispatched, put], by simp [put]⟩

theorem grows_send (s : St) (a : Addr) (n : Option Addr) : Grows s (send s a n) :=
  ⟨⟨[_], rfl⟩, by simp [dispatched, send, put, assign], by simp [send, put, assign]⟩

theorem grows_redirect (s : St) (m : Nat) (a : Addr) (n : Option Addr) : Grows s (redirect s m a n) := by
  by_cases hq : m ∈ s.queue
  · exact ⟨⟨[.put m a, .clash m], by simp [redirect, hq, put, assign]⟩,
      by simp [dispatched, redirect, hq, put, assign], by simp [redirect, hq, put, assign]⟩
  · exact ⟨⟨[.put m a], by simp [redirect, hq, put, assign]⟩,
      by simp [dispatched, redirect, hq, put, assign], by simp [redirect, hq, put, assign]⟩

theorem grows_op (m : Nat) (s : St) (o : Op) : Grows s (runOp m s o) := by
  cases o with
  | send a n => exact grows_send s a n
  | redirect a n => exact grows_redirect s m a n
  | keep => exact ⟨⟨[], rfl⟩, rfl, Nat.le_refl _⟩
  | release x a n =>
    simp only [runOp]
    split
    · exact Grows.trans (b := { s with held := s.held.erase x }) ⟨⟨[], rfl⟩, rfl, Nat.le_refl _⟩
        (grows_redirect _ x a n)
    · exact .refl s
  | forget x => exact ⟨⟨[], rfl⟩, rfl, Nat.le_refl _⟩

theorem grows_foldl {α : Type} {f : St → α → St} (hf : ∀ s a, Grows s (f s a)) :
    ∀ (l : List α) (s : St), Grows s (l.foldl f s) := by
  intro l
  induction l with
  | nil => intro s; exact .refl s
  | cons a r ih => intro s; exact (hf s a).trans (ih _)

theorem grows_call (env : Env) (m : Nat) (s : St) (h : Handler) : Grows s (call env m s h) :=
  Grows.trans (b := { s with log := .call h m :: s.log })
    ⟨⟨[.call h m], rfl⟩, by simp [dispatched], Nat.le_refl _⟩
    (grows_foldl (grows_op m) _ _)

/-- one turn: exactly one message is dispatched -/
theorem turn_one {subs : Addr → List Handler} {env : Env} {s : St} (h : s.queue ≠ []) :
    Ext s (turn subs env s) ∧ (dispatched (turn subs env s)).length = (dispatched s).length + 1 ∧
      s.queue.length ≤ (turn subs env s).queue.length + 1 := by
  unfold turn
  split
  · rename_i hq; exact (h hq).elim
  · rename_i m q hq
    have g := grows_foldl (grows_call env m) (subs (s.heap m).addr)
      { s with queue := q, log := .dispatch m (s.heap m).addr :: s.log }
    have hfin : ∀ s3, Grows { s with queue := q, log := .dispatch m (s.heap m).addr :: s.log } s3 →
        Ext s s3 ∧ (dispatched s3).length = (dispatched s).length + 1 ∧ s.queue.length ≤ s3.queue.length + 1 := by
      intro s3 g3
      refine ⟨Ext.trans ⟨[.dispatch m (s.heap m).addr], rfl⟩ g3.ext, ?_, ?_⟩
      · rw [g3.disp]; simp [dispatched]
      · have := g3.queue
        rw [hq]; simp only [List.length_cons] at this ⊢; omega
    simp only
    split
    · exact hfin _ g
    · split
      · rename_i n _ _
        refine hfin _ (g.trans ?_)
        exact ⟨⟨[_], rfl⟩, by simp [dispatched, put, assign], by simp [put, assign]⟩
      · exact hfin _ g

theorem turns {subs : Addr → List Handler} {env : Env} : ∀ (n : Nat) (s : St), n ≤ s.queue.length →
    Ext s ((List.replicate n Act.turn).foldl (step subs env) s) ∧
      (dispatched ((List.replicate n Act.turn).foldl (step subs env) s)).length = (dispatched s).length + n := by
  intro n
  induction n with
  | zero => intro s _; exact ⟨.refl s, rfl⟩
  | succ n ih =>
    intro s hn
    have hne : s.queue ≠ [] := by intro hh; rw [hh] at hn; simp at hn
    obtain ⟨h1, h2, h3⟩ := turn_one (subs := subs) (env := env) hne
    obtain ⟨h4, h5⟩ := ih (turn subs env s) (by omega)
    simp only [List.replicate_succ, List.foldl_cons, step]
    exact ⟨h1.trans h4, by rw [h5]; omega⟩

/-- **C62 (arrival).** After as many turns of the loop as messages are in the queue, exactly what
had been sent, redirected or moved on has been dispatched, in that order, at the address it
was put for (unless a waiting message was redirected). -/
theorem C62_arrives_partial (subs : Addr → List Handler) (env : Env) (l : List Act)
    (h : NoClash (run subs env (l ++ List.replicate (run subs env l).queue.length .turn))) :
    dispatched (run subs env (l ++ List.replicate (run subs env l).queue.length .turn)) =
      puts (run subs env l) := by
  let s := run subs env l
  have hs' : run subs env (l ++ List.replicate s.queue.length .turn) =
      (List.replicate s.queue.length Act.turn).foldl (step subs env) s := by
    simp only [run, List.foldl_append]; rfl
  obtain ⟨h1, h2⟩ := turns (subs := subs) (env := env) s.queue.length s (Nat.le_refl _)
  rw [← hs'] at h1 h2
  obtain ⟨x, hx⟩ := h1
  have hc : NoClash s := by
    intro m hm; exact h m (by rw [show (run subs env l).queue.length = s.queue.length from rfl, hx]; simp [hm])
  have e1 := C62_order_partial subs env l hc
  have e2 := C62_order_partial subs env _ h
  have e3 : ∃ y, puts (run subs env (l ++ List.replicate s.queue.length .turn)) = puts s ++ y :=
    ⟨(x.filterMap fun e => match e with | .put m a => some (m, a) | _ => none).reverse, by
      simp only [puts, hx, List.filterMap_append, List.reverse_append]⟩
  obtain ⟨y, hy⟩ := e3
  rw [show (run subs env l).queue.length = s.queue.length from rfl] at e2 ⊢
  rw [hy] at e2
  have hlen : (puts s).length = (dispatched s).length + s.queue.length := by
    have := congrArg List.length e1
    simpa [waiting] using this
  have hle : (puts s).length = (dispatched (run subs env (l ++ List.replicate s.queue.length .turn))).length := by
    omega
  have := List.append_inj_left e2 hle
  exact this.symm

/-! ### A sufficient discipline -/

/-- Every address has at most one handler, and every handler redirects the message it was called
with at most once and does not keep it. -/
structure Disciplined (subs : Addr → List Handler) (env : Env) : Prop where
  single : ∀ a, (subs a).length ≤ 1
  once : ∀ h m s, (env h m s).countP (fun o => match o with | .redirect _ _ => true | _ => false) ≤ 1
  noKeep : ∀ h m s, .keep ∉ env h m s

/-- every message is in the queue at most once, and only there -/
structure Tidy (s : St) : Prop where
  nodup : s.queue.Nodup
  held : s.held = []
  bound : ∀ m ∈ s.queue, m < s.fresh
  clean : NoClash s

theorem tidy_put {s : St} {m : Nat} (h : Tidy s) (hm : m < s.fresh) (hq : m ∉ s.queue) : Tidy (put s m) := by
  refine ⟨?_, h.held, ?_, ?_⟩
  · simp only [put]
    rw [List.nodup_append]
    refine ⟨h.nodup, by simp, ?_⟩
    intro x hx y hy
    simp only [List.mem_singleton] at hy
    rintro rfl
    subst hy
    exact hq hx
  · intro x hx
    simp only [put, List.mem_append, List.mem_singleton] at hx ⊢
    rcases hx with hx | rfl
    · exact h.bound x hx
    · exact hm
  · intro x hx
    simp only [put, List.mem_cons] at hx
    rcases hx with hx | hx
    · cases hx
    · exact h.clean x hx

theorem tidy_assign {s : St} {m : Nat} {a : Addr} {n : Option Addr} (h : Tidy s) : Tidy (assign s m a n) :=
  ⟨h.nodup, h.held, h.bound, h.clean⟩

theorem tidy_send {s : St} (a : Addr) (n : Option Addr) (h : Tidy s) : Tidy (send s a n) := by
  have hnot : s.fresh ∉ s.queue := fun hh => absurd (h.bound _ hh) (Nat.lt_irrefl _)
  refine tidy_put ⟨h.nodup, h.held, ?_, h.clean⟩ (Nat.lt_succ_self _) hnot
  intro x hx
  exact Nat.lt_succ_of_lt (h.bound x hx)

theorem tidy_redirect {s : St} {m : Nat} (a : Addr) (n : Option Addr) (h : Tidy s) (hm : m < s.fresh)
    (hq : m ∉ s.queue) : Tidy (redirect s m a n) := by
  simp only [redirect, if_neg hq]
  exact tidy_put (tidy_assign h) hm hq

/-- is this a redirection of the message at hand? -/
def isRedirect : Op → Bool
  | .redirect _ _ => true
  | _ => false

/-- while a handler is called with `m`: `m` has not been put back, or will not be redirected any
more -/
theorem tidy_ops {m : Nat} : ∀ (l : List Op) (s : St), Tidy s → m < s.fresh → .keep ∉ l →
    (m ∉ s.queue ∧ l.countP isRedirect ≤ 1 ∨ l.countP isRedirect = 0) →
    Tidy (l.foldl (runOp m) s) ∧ m < (l.foldl (runOp m) s).fresh ∧
      (m ∉ s.queue → l.countP isRedirect = 0 →
        m ∉ (l.foldl (runOp m) s).queue ∧ (l.foldl (runOp m) s).heap m = s.heap m) ∧
      (l.countP isRedirect = 0 → (l.foldl (runOp m) s).heap m = s.heap m) := by
  intro l
  induction l with
  | nil => intro s h hm _ _; exact ⟨h, hm, fun hh _ => ⟨hh, rfl⟩, fun _ => rfl⟩
  | cons o r ih =>
    intro s h hm hk hc
    have hk' : .keep ∉ r := fun hh => hk (by simp [hh])
    cases o with
    | send a n =>
      have hr : (Op.send a n :: r).countP isRedirect = r.countP isRedirect := by simp [isRedirect]
      rw [hr] at hc ⊢
      have hq' : m ∉ s.queue → m ∉ (send s a n).queue := by
        intro hh
        simp only [send, put, assign, List.mem_append, List.mem_singleton, not_or]
        exact ⟨hh, Nat.ne_of_lt hm⟩
      have hheap : (send s a n).heap m = s.heap m := by
        simp only [send, put, assign, if_neg (Nat.ne_of_lt hm)]
      obtain ⟨i1, i2, i3, i4⟩ := ih (send s a n) (tidy_send a n h)
        (by simp only [send, put, assign]; exact Nat.lt_succ_of_lt hm) hk'
        (hc.imp (fun hh => ⟨hq' hh.1, hh.2⟩) id)
      simp only [List.foldl_cons, runOp]
      refine ⟨i1, i2, ?_, ?_⟩
      · intro hh hz
        obtain ⟨j1, j2⟩ := i3 (hq' hh) hz
        exact ⟨j1, j2.trans hheap⟩
      · intro hz; exact (i4 hz).trans hheap
    | redirect a n =>
      have hr : (Op.redirect a n :: r).countP isRedirect = r.countP isRedirect + 1 := by
        rw [List.countP_cons]; rfl
      rw [hr] at hc ⊢
      rcases hc with ⟨hq, hc⟩ | hc
      · obtain ⟨i1, i2, _, _⟩ := ih (redirect s m a n) (tidy_redirect a n h hm hq)
          (by simp only [redirect, if_neg hq, put, assign]; exact hm) hk' (.inr (by omega))
        simp only [List.foldl_cons, runOp]
        exact ⟨i1, i2, fun _ hz => by omega, fun hz => by omega⟩
      · omega
    | keep => exact (hk (by simp)).elim
    | release x a n =>
      have hr : (Op.release x a n :: r).countP isRedirect = r.countP isRedirect := by simp [isRedirect]
      rw [hr] at hc ⊢
      have : runOp m s (.release x a n) = s := by simp [runOp, h.held]
      simp only [List.foldl_cons, this]
      exact ih s h hm hk' hc
    | forget x =>
      have hr : (Op.forget x :: r).countP isRedirect = r.countP isRedirect := by simp [isRedirect]
      rw [hr] at hc ⊢
      have : runOp m s (.forget x) = s := by
        have := h.held
        obtain ⟨hp, fr, q, he, lg⟩ := s
        simp only at this
        subst this
        rfl
      simp only [List.foldl_cons, this]
      exact ih s h hm hk' hc

theorem tidy_step {subs : Addr → List Handler} {env : Env} (hd : Disciplined subs env) {s : St} (c : Act)
    (h : Tidy s) : Tidy (step subs env s c) := by
  cases c with
  | send a n => exact tidy_send a n h
  | turn =>
    simp only [step, turn]
    split
    · exact h
    · rename_i m q hq
      have hn := h.nodup
      rw [hq] at hn
      have hmq : m ∉ q := (List.nodup_cons.mp hn).1
      have hm : m < s.fresh := h.bound m (by simp [hq])
      have h1 : Tidy { s with queue := q, log := .dispatch m (s.heap m).addr :: s.log } :=
        ⟨(List.nodup_cons.mp hn).2, h.held, fun x hx => h.bound x (by simp [hq, hx]), by
          intro x hx
          simp only [List.mem_cons] at hx
          rcases hx with hx | hx
          · cases hx
          · exact h.clean x hx⟩
      have h2 : Tidy ((subs (s.heap m).addr).foldl (call env m)
          { s with queue := q, log := .dispatch m (s.heap m).addr :: s.log }) ∧
          m < ((subs (s.heap m).addr).foldl (call env m)
          { s with queue := q, log := .dispatch m (s.heap m).addr :: s.log }).fresh := by
        have hs := hd.single (s.heap m).addr
        cases hl : subs (s.heap m).addr with
        | nil => exact ⟨h1, hm⟩
        | cons e r =>
          rw [hl] at hs
          have : r = [] := by
            cases r with
            | nil => rfl
            | cons _ _ => simp at hs
          subst this
          simp only [List.foldl_cons, List.foldl_nil, call]
          have hkeep := hd.noKeep e m { s with queue := q, log := .dispatch m (s.heap m).addr :: s.log }
          have honce := hd.once e m { s with queue := q, log := .dispatch m (s.heap m).addr :: s.log }
          obtain ⟨i1, i2, _, _⟩ := tidy_ops _ { s with queue := q, log := .call e m :: .dispatch m (s.heap m).addr :: s.log }
            ⟨h1.nodup, h1.held, h1.bound, by
              intro x hx
              simp only [List.mem_cons] at hx
              rcases hx with hx | hx | hx
              · cases hx
              · cases hx
              · exact h.clean x hx⟩ hm hkeep (.inl ⟨hmq, honce⟩)
          exact ⟨i1, i2⟩
      split
      · exact h2.1
      · split
        · rename_i n hn' hu
          exact tidy_put (tidy_assign h2.1) h2.2 (not_queued hu)
        · exact h2.1

theorem tidy_run {subs : Addr → List Handler} {env : Env} (hd : Disciplined subs env) (l : List Act) :
    Tidy (run subs env l) := by
  have : ∀ (l : List Act) (s : St), Tidy s → Tidy (l.foldl (step subs env) s) := by
    intro l
    induction l with
    | nil => intro s h; exact h
    | cons c r ih => intro s h; exact ih _ (tidy_step hd c h)
  exact this l init ⟨by simp [init], rfl, by simp [init], by simp [init, NoClash]⟩

/-- **C62 (one handler per address).** When every address has at most one handler and a handler
redirects its message at most once, no waiting message is ever redirected, so that every message
arrives where it was sent or redirected to: after as many turns as there are waiting messages
exactly what had been put was dispatched, in order. -/
theorem C62_single_arrives (subs : Addr → List Handler) (env : Env) (hd : Disciplined subs env)
    (l : List Act) :
    dispatched (run subs env (l ++ List.replicate (run subs env l).queue.length .turn)) =
      puts (run subs env l) :=
  C62_arrives_partial subs env l (tidy_run hd _).clean

/-- **C62 (next route).** In the same setting: a message with a next route whose handlers do not
redirect it is moved on to that route, as the last message of the queue, in the same turn. -/
theorem C62_next_route (subs : Addr → List Handler) (env : Env) (hd : Disciplined subs env)
    (l : List Act) (m : Nat) (q : List Nat) (n : Addr) (hq : (run subs env l).queue = m :: q)
    (hnext : ((run subs env l).heap m).next = some n)
    (hno : ∀ h ∈ subs ((run subs env l).heap m).addr, ∀ s a k, .redirect a k ∉ env h m s) :
    ∃ q', (run subs env (l ++ [.turn])).queue = q' ++ [m] ∧ m ∉ q' ∧
      (run subs env (l ++ [.turn])).heap m = { addr := n, next := none } := by
  have hrun : run subs env (l ++ [.turn]) = turn subs env (run subs env l) := by
    simp [run, step]
  rw [hrun]
  have h := tidy_run hd l
  generalize run subs env l = s at *
  have hn := h.nodup
  rw [hq] at hn
  have hmq : m ∉ q := (List.nodup_cons.mp hn).1
  have hm : m < s.fresh := h.bound m (by simp [hq])
  unfold turn
  simp only [hq]
  have h2 : ∀ s2, s2 = ((subs (s.heap m).addr).foldl (call env m)
      { s with queue := q, log := .dispatch m (s.heap m).addr :: s.log }) →
      m ∉ s2.queue ∧ s2.held = [] ∧ s2.heap m = s.heap m := by
    intro s2 hs2
    have hs := hd.single (s.heap m).addr
    cases hl : subs (s.heap m).addr with
    | nil => rw [hl] at hs2; subst hs2; exact ⟨hmq, h.held, rfl⟩
    | cons e r =>
      rw [hl] at hs hs2
      have : r = [] := by
        cases r with
        | nil => rfl
        | cons _ _ => simp at hs
      subst this
      simp only [List.foldl_cons, List.foldl_nil, call] at hs2
      have hkeep := hd.noKeep e m { s with queue := q, log := .dispatch m (s.heap m).addr :: s.log }
      have hz : (env e m { s with queue := q, log := .dispatch m (s.heap m).addr :: s.log }).countP isRedirect = 0 := by
        rw [List.countP_eq_zero]
        intro o ho
        cases o with
        | redirect a k => exact (hno e (by simp [hl]) _ a k ho).elim
        | _ => simp [isRedirect]
      obtain ⟨i1, i2, i3, _⟩ := tidy_ops _ { s with queue := q, log := .call e m :: .dispatch m (s.heap m).addr :: s.log }
        ⟨(List.nodup_cons.mp hn).2, h.held, fun x hx => h.bound x (by simp [hq, hx]), by
          intro x hx
          simp only [List.mem_cons] at hx
          rcases hx with hx | hx | hx
          · cases hx
          · cases hx
          · exact h.clean x hx⟩ hm hkeep (.inr hz)
      rw [← hs2] at i1 i3
      obtain ⟨j1, j2⟩ := i3 hmq hz
      exact ⟨j1, i1.held, j2⟩
  obtain ⟨h3, h4, h5⟩ := h2 _ rfl
  rw [h5, hnext]
  simp only
  have hu : useCount ((subs (s.heap m).addr).foldl (call env m)
      { s with queue := q, log := .dispatch m (s.heap m).addr :: s.log }) m = 1 := by
    simp [useCount, h4, List.count_eq_zero.mpr h3]
  rw [if_pos hu]
  exact ⟨_, rfl, h3, by simp [put, assign]⟩

/-! ### Counterexamples and cases -/

/-- Two handlers of the same address redirect the message to different addresses, 2 and 3: both
entries of the queue are the same object, which is dispatched twice at 3 and never at 2. -/
theorem C62_two_handlers_counterexample :
    ∃ (subs : Addr → List Handler) (env : Env),
      puts (run subs env [.send 1 none, .turn, .turn, .turn]) = [(0, 1), (0, 2), (0, 3)] ∧
      dispatched (run subs env [.send 1 none, .turn, .turn, .turn]) = [(0, 1), (0, 3), (0, 3)] ∧
      (run subs env [.send 1 none, .turn, .turn, .turn]).queue = [] :=
  ⟨fun a => if a = 1 then [10, 11] else [],
    fun h _ _ => if h = 10 then [.redirect 2 none] else if h = 11 then [.redirect 3 none] else [],
    rfl, rfl, rfl⟩

/-- A message that was to go to 1 and then to 5 is redirected from 1 to 2: it never gets to 5. -/
theorem C62_dropped_route_counterexample :
    ∃ (subs : Addr → List Handler) (env : Env), Disciplined subs env ∧
      dispatched (run subs env [.send 1 (some 5), .turn, .turn]) = [(0, 1), (0, 2)] ∧
      (run subs env [.send 1 (some 5), .turn, .turn]).queue = [] := by
  refine ⟨fun a => if a = 1 then [10] else [], fun h _ _ => if h = 10 then [.redirect 2 none] else [],
    ⟨?_, ?_, ?_⟩, rfl, rfl⟩
  · intro a; split <;> simp
  · intro h m s; split <;> simp
  · intro h m s; split <;> simp

/-- A ping-pong with a single object (`examples/thread/ping-pong-no-alloc.cpp:62-68`), and a
routed message beside it. -/
example : ∃ (subs : Addr → List Handler) (env : Env), Disciplined subs env ∧
    dispatched (run subs env [.send 1 none, .send 3 (some 4), .turn, .turn, .turn, .turn, .turn]) =
      [(0, 1), (1, 3), (0, 2), (1, 4), (0, 1)] := by
  refine ⟨fun a => if a = 1 then [10] else if a = 2 then [20] else [30],
    fun h _ _ => if h = 10 then [.redirect 2 none] else if h = 20 then [.redirect 1 none] else [],
    ⟨?_, ?_, ?_⟩, rfl⟩
  · intro a; split <;> (try split) <;> simp
  · intro h m s; split <;> (try split) <;> simp
  · intro h m s; split <;> (try split) <;> simp

/-- A kept message does not take its hop, and can be redirected later (`actor_base.h:137-141`). -/
example : dispatched (run (fun a => if a = 1 then [10] else if a = 2 then [20] else [])
      (fun h _ _ => if h = 10 then [.keep] else if h = 20 then [.release 0 7 none] else [])
      [.send 1 (some 5), .turn, .send 2 none, .turn, .turn]) = [(0, 1), (1, 2), (0, 7)] := rfl

end Verif.Redirect
