import Verif.FltkLoop.Model
/-!
# C69: messages in the FLTK backend
-/

namespace Verif.FltkLoop

variable {σ σ' : State}

/-- the messages of other threads among those of a queue -/
def outsiders (l : List Item) : List Nat := l.filterMap (fun x => match x with | .outside m => some m | _ => none)

theorem outsiders_append (a b : List Item) : outsiders (a ++ b) = outsiders a ++ outsiders b := List.filterMap_append ..
theorem outsiders_inside (l : List Nat) : outsiders (l.map .inside) = [] := by
  induction l with | nil => rfl | cons x l ih => simpa [outsiders] using ih
theorem outsiders_timer (l : List Nat) : outsiders (l.map .timer) = [] := by
  induction l with | nil => rfl | cons x l ih => simpa [outsiders] using ih
theorem outsiders_cons (x : Item) (l : List Item) : outsiders (x :: l) = outsiders [x] ++ outsiders l := outsiders_append [x] l

/-- messages fetched that are not subtracted yet -/
def Pc.held : Pc → Int
  | .idle => 0
  | .fetching n => n
  | .proc (some n) => n
  | .proc none => 0
  | .sub n => n

/-- `_callback` is running -/
def Pc.draining : Pc → Bool
  | .fetching _ => true
  | .proc (some _) => true
  | .sub _ => true
  | _ => false

/-- the messages a callback of a timer has put -/
def Item.late : Item → Prop
  | .timer _ => True
  | _ => False

structure Inv (σ : State) : Prop where
  order : σ.pushed = outsiders σ.taken ++ outsiders σ.queue ++ σ.inbound
  balance : σ.counter + σ.pushing = σ.inbound.length + σ.pc.held
  awake : 0 < σ.counter → σ.pc.draining = true ∨ 0 < σ.wakes
  nz : ∀ n, σ.pc = .sub n ∨ σ.pc = .proc (some n) → n ≠ 0
  idle : σ.pc = .idle → ∀ x, x ∈ σ.queue → x.late
  empty : ∀ n, σ.pc = .sub n → σ.queue = []
  first : σ.pc = .fetching 0 → ∀ x, x ∈ σ.queue → x.late

theorem Inv.init : Inv .init := by constructor <;> simp [State.init, outsiders, Pc.held]

theorem late_append {l : List Item} {puts : List Nat} (h : ∀ x, x ∈ l → x.late) : ∀ x, x ∈ l ++ puts.map .timer → Item.late x := by
  intro x hx
  rw [List.mem_append] at hx
  rcases hx with hx | hx
  · exact h x hx
  · simp only [List.mem_map] at hx; obtain ⟨y, -, rfl⟩ := hx; trivial

theorem Inv.step {op : Op} (h : Inv σ) (e : step σ op = some σ') : Inv σ' := by
  obtain ⟨pc, inbound, pushing, counter, wakes, starts, downs, queue, taken, pushed⟩ := σ
  obtain ⟨h1, h2, h3, h4, h5, h6, h7⟩ := h
  simp only at h1 h2 h3 h4 h5 h6 h7
  cases op <;> simp only [FltkLoop.step] at e
  case push m =>
    injection e with e; subst e
    refine ⟨?_, ?_, h3, h4, h5, h6, h7⟩
    · simp [h1]
    · simp only [List.length_append, List.length_singleton]; omega
  case add =>
    split at e
    · cases e
    injection e with e; subst e
    refine ⟨h1, ?_, ?_, h4, h5, h6, h7⟩
    · simp only; omega
    · simp only
      intro h
      split
      · right; omega
      · rcases h3 (by omega) with h | h
        · exact .inl h
        · exact .inr h
  case wake =>
    split at e
    · rename_i hc
      injection e with e; subst e
      obtain ⟨rfl, hw⟩ := hc
      refine ⟨h1, by simpa [Pc.held] using h2, fun _ => .inl rfl, fun n h => (by simp at h), fun h => (by cases h), fun n h => (by cases h),
        fun _ => h5 rfl⟩
    · cases e
  case fetch =>
    split at e
    · rename_i n
      split at e
      · rename_i m l
        injection e with e; subst e
        refine ⟨?_, ?_, fun _ => .inl rfl, fun n h => (by simp at h), fun h => (by cases h), fun n h => (by cases h), fun h => (by simp at h)⟩
        · simp [h1, outsiders]
        · simp only [Pc.held, List.length_cons] at h2 ⊢; omega
      · injection e with e; subst e
        by_cases hn : n = 0
        · subst hn
          simp only [if_true]
          refine ⟨h1, by simpa [Pc.held] using h2, ?_, fun n h => (by simp at h), fun _ => h7 rfl, fun n h => (by cases h), fun h => (by cases h)⟩
          intro h
          simp only [Pc.held, List.length_nil] at h2
          simp only at h
          omega
        · simp only [if_neg hn]
          refine ⟨h1, by simpa [Pc.held] using h2, fun _ => .inl rfl, fun n' h => ?_, fun h => (by cases h), fun n h => (by cases h), fun h => (by cases h)⟩
          simp at h; omega
    · cases e
  case dispatch puts =>
    split at e
    · rename_i r
      split at e
      · rename_i x q
        injection e with e; subst e
        refine ⟨?_, h2, h3, h4, fun h => (by cases h), fun n h => (by cases h), fun h => (by cases h)⟩
        simp only
        rw [h1, outsiders_cons, outsiders_append, outsiders_append, outsiders_inside]
        simp
      · cases e
    · cases e
  case done =>
    split at e
    · rename_i r
      split at e
      · rename_i hq
        subst hq
        injection e with e; subst e
        cases r with
        | none => exact ⟨h1, h2, h3, fun n h => (by simp at h), fun _ x hx => (by cases hx), fun n h => (by cases h), fun h => (by cases h)⟩
        | some n =>
          refine ⟨h1, h2, fun _ => .inl rfl, fun n' h => ?_, fun h => (by cases h), fun n h => rfl, fun h => (by cases h)⟩
          simp at h; subst h; exact h4 _ (.inr rfl)
      · cases e
    · cases e
  case sub =>
    split at e
    · rename_i n
      injection e with e; subst e
      have hq := h6 n rfl
      subst hq
      by_cases hn : counter = n
      · simp only [if_pos hn]
        refine ⟨h1, by simp only [Pc.held] at h2 ⊢; omega, fun h => (by simp only at h; omega), fun n h => (by simp at h), fun _ x hx => (by cases hx),
          fun n h => (by cases h), fun h => (by cases h)⟩
      · simp only [if_neg hn]
        refine ⟨h1, by simp only [Pc.held] at h2 ⊢; omega, fun _ => .inl rfl, fun n h => (by simp at h), fun h => (by cases h),
          fun n h => (by cases h), fun _ x hx => (by cases hx)⟩
    · cases e
  case start => injection e with e; subst e; exact ⟨h1, h2, h3, h4, h5, h6, h7⟩
  case down => injection e with e; subst e; exact ⟨h1, h2, h3, h4, h5, h6, h7⟩
  case runStart =>
    split at e
    · rename_i hc
      injection e with e; subst e
      obtain ⟨rfl, hw⟩ := hc
      exact ⟨h1, h2, h3, fun n h => (by simp at h), fun h => (by cases h), fun n h => (by cases h), fun h => (by cases h)⟩
    · cases e
  case runDown puts =>
    split at e
    · rename_i hc
      injection e with e; subst e
      obtain ⟨rfl, hw⟩ := hc
      refine ⟨?_, h2, h3, fun n h => (by simp at h), fun h => (by cases h), fun n h => (by cases h), fun h => (by cases h)⟩
      simp [h1, outsiders_append, outsiders_inside]
    · cases e
  case timer puts =>
    split at e
    · rename_i hc
      injection e with e; subst e
      subst hc
      refine ⟨?_, h2, h3, h4, fun _ => late_append (h5 rfl), fun n h => (by cases h), fun h => (by cases h)⟩
      simp [h1, outsiders_append, outsiders_timer]
    · cases e
  case process =>
    split at e
    · rename_i hc
      injection e with e; subst e
      subst hc
      exact ⟨h1, h2, h3, fun n h => (by simp at h), fun h => (by cases h), fun n h => (by cases h), fun h => (by cases h)⟩
    · cases e

theorem Inv.run {ops : List Op} : ∀ {σ σ' : State}, Inv σ → run σ ops = some σ' → Inv σ' := by
  induction ops with
  | nil => intro σ σ' h e; simp only [FltkLoop.run, Option.some.injEq] at e; subst e; exact h
  | cons op ops ih =>
    intro σ σ' h e
    simp only [FltkLoop.run] at e
    split at e
    · cases e
    · rename_i e1; exact ih (h.step e1) e

/-- **C69** Messages of other threads are dispatched once each and in the order in which they were pushed; what was not dispatched is in the queue of the
locality or in the inbound queue. -/
theorem C69_order {ops : List Op} (h : run .init ops = some σ) : σ.pushed = outsiders σ.taken ++ outsiders σ.queue ++ σ.inbound :=
  (Inv.init.run h).order

/-- **C69** When the loop is idle, no wake-up is pending and no thread is in the middle of `enqueue`, every message of another thread has been dispatched. -/
theorem C69_all_dispatched {ops : List Op} (h : run .init ops = some σ) (hi : σ.pc = .idle) (hw : σ.wakes = 0) (hp : σ.pushing = 0) :
    outsiders σ.taken = σ.pushed := by
  have i := Inv.init.run h
  have h0 : σ.inbound = [] := by
    have hb := i.balance
    rw [hi, hp] at hb
    simp only [Pc.held] at hb
    have := i.awake
    rw [hi, hw] at this
    simp only [Pc.draining] at this
    cases hl : σ.inbound with
    | nil => rfl
    | cons x l =>
      rw [hl] at hb
      simp only [List.length_cons] at hb
      rcases this (by omega) with h | h
      · cases h
      · omega
  have h1 : outsiders σ.queue = [] := by
    have := i.idle hi
    unfold outsiders
    rw [List.filterMap_eq_nil_iff]
    intro x hx
    have := this x hx
    cases x <;> simp_all [Item.late]
  rw [i.order, h0, h1]; simp

/-- **C69 (partial: but for messages sent by callbacks of timers, which stay, see below).** When the loop is idle, no message is left in the
queue of the locality. -/
theorem C69_none_left_partial {ops : List Op} (h : run .init ops = some σ) (hi : σ.pc = .idle) : ∀ x, x ∈ σ.queue → ∃ m, x = .timer m := by
  intro x hx
  have := (Inv.init.run h).idle hi x hx
  cases x with
  | timer m => exact ⟨m, rfl⟩
  | outside m => exact absurd this (by simp [Item.late])
  | inside m => exact absurd this (by simp [Item.late])

/-- messages of timers come from timers -/
theorem no_timers {ops : List Op} : ∀ {σ σ' : State}, (∀ m, Item.timer m ∉ σ.queue) → (∀ op ∈ ops, ∀ puts, op ≠ .timer puts) → run σ ops = some σ' →
    ∀ m, Item.timer m ∉ σ'.queue := by
  induction ops with
  | nil => intro σ σ' h _ e; simp only [run, Option.some.injEq] at e; subst e; exact h
  | cons op ops ih =>
    intro σ σ' h ho e
    simp only [run] at e
    split at e
    · cases e
    rename_i e1
    refine ih ?_ (fun o ho' => ho o (.tail _ ho')) e
    have hop := ho op (.head _)
    intro m hm
    cases op <;> simp only [step] at e1
    case timer puts => exact hop puts rfl
    all_goals
      (repeat' split at e1)
      all_goals first
        | (cases e1; done)
        | (injection e1 with e1; subst e1; simp_all)

/-- **C69** Without timers nothing is left when the loop is idle. -/
theorem C69_none_left_without_timers {ops : List Op} (h : run .init ops = some σ) (ht : ∀ op ∈ ops, ∀ puts, op ≠ .timer puts) (hi : σ.pc = .idle) :
    σ.queue = [] := by
  cases hq : σ.queue with
  | nil => rfl
  | cons x q =>
    obtain ⟨m, rfl⟩ := C69_none_left_partial h hi x (by rw [hq]; simp)
    exact absurd (by rw [hq]; simp) (no_timers (by simp [State.init]) ht h m)

/-- **C69** Whatever was in the queue when the user called `do_process`, or FLTK the callbacks of `start` and `shutdown`, has been dispatched when they
return, messages of timers included. -/
theorem C69_process_takes_all {ops ops' : List Op} {op : Op} (_h : run .init ops = some σ) (h' : run σ (op :: ops' ++ [.done]) = some σ')
    (ho : op = .process ∨ op = .runStart ∨ ∃ puts, op = .runDown puts) (hn : .done ∉ ops') : σ'.queue = [] ∧ ∀ x, x ∈ σ.queue → x ∈ σ'.taken := by
  have hrun : ∀ {a b : List Op} {σ σ' : State}, run σ (a ++ b) = some σ' → ∃ τ, run σ a = some τ ∧ run τ b = some σ' := by
    intro a
    induction a with
    | nil => intro b σ σ' h; exact ⟨σ, rfl, h⟩
    | cons x a ih =>
      intro b σ σ' h
      simp only [List.cons_append, run] at h ⊢
      split at h
      · cases h
      · rename_i e; exact ih h
  obtain ⟨τ, e1, e2⟩ := hrun h'
  simp only [run] at e1
  split at e1
  · cases e1
  rename_i τ0 e0
  have h0 : τ0.pc = .proc none ∧ ∀ x, x ∈ σ.queue → x ∈ τ0.queue := by
    rcases ho with rfl | rfl | ⟨puts, rfl⟩ <;> simp only [step] at e0 <;> split at e0
    · injection e0 with e0; subst e0; exact ⟨rfl, fun _ => id⟩
    · cases e0
    · injection e0 with e0; subst e0; exact ⟨rfl, fun _ => id⟩
    · cases e0
    · injection e0 with e0; subst e0; exact ⟨rfl, fun x hx => List.mem_append_left _ hx⟩
    · cases e0
  have key : ∀ {l : List Op} {a b : State}, .done ∉ l → a.pc = .proc none → run a l = some b →
      b.pc = .proc none ∧ (∀ x, x ∈ a.queue ∨ x ∈ a.taken → x ∈ b.queue ∨ x ∈ b.taken) := by
    intro l
    induction l with
    | nil => intro a b _ hp e; simp only [run, Option.some.injEq] at e; subst e; exact ⟨hp, fun _ => id⟩
    | cons op l ih =>
      intro a b hd hp e
      simp only [run] at e
      split at e
      · cases e
      rename_i c e1
      have hc : c.pc = .proc none ∧ ∀ x, x ∈ a.queue ∨ x ∈ a.taken → x ∈ c.queue ∨ x ∈ c.taken := by
        cases op <;> simp only [step, hp] at e1
        case done => simp at hd
        case dispatch puts =>
          split at e1
          · rename_i x q hq
            injection e1 with e1; subst e1
            refine ⟨rfl, fun y hy => ?_⟩
            rw [hq] at hy
            simp only [List.mem_cons, List.mem_append, List.not_mem_nil, or_false] at hy ⊢
            rcases hy with (hy | hy) | hy
            · exact .inr (.inr hy)
            · exact .inl (.inl hy)
            · exact .inr (.inl hy)
          · cases e1
        all_goals (repeat' split at e1)
        all_goals first
          | (cases e1; done)
          | (injection e1 with e1; subst e1; exact ⟨rfl, fun _ => id⟩)
          | (simp at e1; done)
          | (rename_i hc; simp at hc; done)
      obtain ⟨h1, h2⟩ := ih (fun h => hd (.tail _ h)) hc.1 e
      exact ⟨h1, fun x hx => h2 x (hc.2 x hx)⟩
  obtain ⟨k1, k2⟩ := key hn h0.1 e1
  simp only [run, step, k1] at e2
  by_cases hq : τ.queue = []
  · rw [if_pos hq] at e2
    simp only [Option.some.injEq] at e2
    subst e2
    refine ⟨hq, fun x hx => ?_⟩
    rcases k2 x (.inl (h0.2 x hx)) with h | h
    · rw [hq] at h; cases h
    · exact h
  · rw [if_neg hq] at e2; cases e2

/-- **C69 fails for timers:** `on_timeout` does not process the queue. What the callback of a timer sends (for example the answer to a request that has
timed out) stays there, no wake-up is pending, and no number of further timers changes that: nothing is dispatched until a message of another
thread comes, or the user calls `do_process`. -/
theorem C69_timer_counterexample {m : Nat} {σ : State} (h : run .init [.timer [m]] = some σ) :
    σ.pc = .idle ∧ σ.queue = [.timer m] ∧ σ.wakes = 0 ∧ σ.starts = 0 ∧ σ.downs = 0 ∧
    ∀ (ops : List Op) (σ' : State), (∀ op ∈ ops, op ≠ .process ∧ op ≠ .start ∧ op ≠ .down ∧ ∀ k, op ≠ .push k) → run σ ops = some σ' →
      σ'.taken = [] ∧ .timer m ∈ σ'.queue := by
  simp only [run, step, State.init, if_true, Option.some.injEq] at h
  subst h
  refine ⟨rfl, rfl, rfl, rfl, rfl, ?_⟩
  have key : ∀ (ops : List Op) (σ σ' : State), σ.pc = .idle → σ.wakes = 0 → σ.starts = 0 → σ.downs = 0 → σ.pushing = 0 → σ.taken = [] → .timer m ∈ σ.queue →
      (∀ op ∈ ops, op ≠ .process ∧ op ≠ .start ∧ op ≠ .down ∧ ∀ k, op ≠ .push k) → run σ ops = some σ' → σ'.taken = [] ∧ .timer m ∈ σ'.queue := by
    intro ops
    induction ops with
    | nil => intro σ σ' _ _ _ _ _ h6 h7 _ e; simp only [run, Option.some.injEq] at e; subst e; exact ⟨h6, h7⟩
    | cons op ops ih =>
      intro σ σ' h1 h2 h3 h4 h5 h6 h7 ho e
      obtain ⟨o1, o2, o3, o4⟩ := ho op (.head _)
      simp only [run] at e
      split at e
      · cases e
      rename_i τ e1
      have ho' : ∀ op ∈ ops, op ≠ .process ∧ op ≠ .start ∧ op ≠ .down ∧ ∀ k, op ≠ .push k := fun o h => ho o (.tail _ h)
      cases op <;> simp only [step, h1, h2, h3, h4, h5] at e1
      case timer puts =>
        simp only [if_true, Option.some.injEq] at e1
        subst e1
        refine ih _ _ ?_ ?_ ?_ ?_ ?_ ?_ ?_ ho' e
        · rfl
        · rfl
        · rfl
        · rfl
        · rfl
        · exact h6
        · exact List.mem_append_left _ h7
      case push k => exact absurd rfl (o4 k)
      case start => exact absurd rfl o2
      case down => exact absurd rfl o3
      case process => exact absurd rfl o1
      all_goals simp at e1
  intro ops σ' ho e
  exact key ops _ σ' rfl rfl rfl rfl rfl rfl (by simp) ho e

end Verif.FltkLoop
