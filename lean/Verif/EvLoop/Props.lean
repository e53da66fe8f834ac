import Verif.EvLoop.Model
/-!
# C56 (libev): no message from another thread is forgotten
-/

namespace Verif.EvLoop

variable {σ σ' : State} {r : Nat} {q : List Nat}

/-- the messages the threads have pushed, oldest first -/
def pushed : List Label → List Nat
  | [] => []
  | .push _ _ m :: ls => m :: pushed ls
  | _ :: ls => pushed ls

/-- those that came from outside -/
def outsiders : List Item → List Nat
  | [] => []
  | .outside m :: l => m :: outsiders l
  | .inside _ :: l => outsiders l

/-- somebody is on the way to the watcher of the supervisor, or it is marked -/
def Awaited (σ : State) (s : Nat) : Prop := σ.sent s = true ∨ σ.fed s = true ∨ ∃ i, σ.threads i = some s

structure Inv (r : Nat) (σ : State) : Prop where
  idle : σ.pc = .idle → σ.queue = [] ∨ (σ.active r = true ∧ (σ.sent r = true ∨ σ.fed r = true))
  used : ∀ x, x ∈ σ.inbound → σ.used x.via = true
  wake : ∀ x, x ∈ σ.inbound → x.late = false → σ.pc = .moving ∨ (∃ l, σ.pc = .halting x.via l) ∨ (σ.active x.via = true ∧ Awaited σ x.via)

theorem inv_init : Inv r (State.init r q) := ⟨fun _ => .inr (by simp [State.init]), fun x h => (by cases h), fun x h => (by cases h)⟩

theorem Inv.step (h : Inv r σ) {l : Label} (e : step σ l = some σ') : Inv r σ' := by
  obtain ⟨h1, h2, h3⟩ := h
  cases l with
  | push i s m =>
    simp only [EvLoop.step] at e
    split at e <;> cases e
    rename_i hc
    refine ⟨h1, fun x hx => ?_, fun x hx hl => ?_⟩
    · rcases List.mem_append.1 hx with hx | hx
      · exact h2 x hx
      · simp only [List.mem_singleton] at hx; subst hx; exact hc.2
    · rcases List.mem_append.1 hx with hx | hx
      · rcases h3 x hx hl with h | h | ⟨h, h'⟩
        · exact .inl h
        · exact .inr (.inl h)
        · refine .inr (.inr ⟨h, ?_⟩)
          rcases h' with h' | h' | ⟨j, hj⟩
          · exact .inl h'
          · exact .inr (.inl h')
          · refine .inr (.inr ⟨j, ?_⟩)
            simp only [upd]
            split
            · rename_i hji; rw [hji, hc.1] at hj; cases hj
            · exact hj
      · simp only [List.mem_singleton] at hx; subst hx
        simp only [Bool.not_eq_false'] at hl
        exact .inr (.inr ⟨hl, .inr (.inr ⟨i, by simp [upd]⟩)⟩)
  | start i s =>
    simp only [EvLoop.step] at e
    split at e <;> cases e
    rename_i hc
    refine ⟨h1, h2, fun x hx hl => ?_⟩
    rcases h3 x hx hl with h | h | ⟨h, h'⟩
    · exact .inl h
    · exact .inr (.inl h)
    · refine .inr (.inr ⟨h, ?_⟩)
      rcases h' with h' | h' | ⟨j, hj⟩
      · exact .inl h'
      · exact .inr (.inl h')
      · refine .inr (.inr ⟨j, ?_⟩)
        simp only [upd]
        split
        · rename_i hji; rw [hji, hc.1] at hj; cases hj
        · exact hj
  | signal i =>
    simp only [EvLoop.step] at e
    split at e <;> cases e
    rename_i s hs
    refine ⟨fun h => (h1 h).imp id (fun h => ⟨h.1, h.2.imp (fun h => by simp only [upd]; split <;> simp_all) id⟩), h2, fun x hx hl => ?_⟩
    rcases h3 x hx hl with h | h | ⟨h, h'⟩
    · exact .inl h
    · exact .inr (.inl h)
    · refine .inr (.inr ⟨h, ?_⟩)
      rcases h' with h' | h' | ⟨j, hj⟩
      · left; simp only [upd]; split
        · rfl
        · exact h'
      · exact .inr (.inl h')
      · by_cases hji : j = i
        · left
          rw [hji, hs] at hj
          simp only [Option.some.injEq] at hj
          simp [upd, hj]
        · exact .inr (.inr ⟨j, by simp [upd, hji, hj]⟩)
  | collect =>
    simp only [EvLoop.step] at e
    split at e <;> cases e
    refine ⟨fun h => (h1 h).imp id (fun h => ⟨h.1, .inr (by rcases h with ⟨h, h' | h'⟩ <;> simp [h, h'])⟩), h2, fun x hx hl => ?_⟩
    rcases h3 x hx hl with h | h | ⟨h, h'⟩
    · exact .inl h
    · exact .inr (.inl h)
    · refine .inr (.inr ⟨h, ?_⟩)
      rcases h' with h' | h' | h'
      · exact .inr (.inl (by simp [h', h]))
      · exact .inr (.inl (by simp [h']))
      · exact .inr (.inr h')
  | callback s =>
    simp only [EvLoop.step] at e
    split at e <;> cases e
    exact ⟨by simp, h2, fun x hx hl => .inl rfl⟩
  | timer msgs =>
    simp only [EvLoop.step] at e
    split at e <;> cases e
    rename_i hc
    refine ⟨by simp, h2, fun x hx hl => ?_⟩
    rcases h3 x hx hl with h | ⟨l, h⟩ | h
    · rw [hc] at h; cases h
    · rw [hc] at h; cases h
    · exact .inr (.inr h)
  | pop =>
    simp only [EvLoop.step] at e
    split at e
    · rename_i y l hi
      rw [hi] at h2 h3
      split at e <;> cases e
      all_goals
        rename_i hp
        exact ⟨by simp [hp], fun x hx => h2 x (List.mem_cons_of_mem _ hx), fun x hx hl => h3 x (List.mem_cons_of_mem _ hx) hl⟩
    · rename_i hi
      split at e <;> cases e
      · refine ⟨?_, by simp [hi], by simp [hi]⟩
        simp only; split
        · intro _; left; assumption
        · simp
      · exact ⟨by simp, by simp [hi], by simp [hi]⟩
      · exact ⟨h1, h2, h3⟩
  | leave =>
    simp only [EvLoop.step] at e
    split at e <;> cases e
    rename_i hc
    refine ⟨?_, h2, fun x hx hl => ?_⟩
    · simp only; split
      · intro _; left; assumption
      · simp
    · rcases h3 x hx hl with h | ⟨l, h⟩ | h
      · rw [hc] at h; cases h
      · rw [hc] at h; cases h
      · exact .inr (.inr h)
  | dispatch msgs =>
    simp only [EvLoop.step] at e
    split at e <;> cases e
    rename_i hp hq
    exact ⟨by simp [hp], h2, h3⟩
  | «return» poll =>
    simp only [EvLoop.step] at e
    split at e <;> cases e
    rename_i hp hq
    refine ⟨fun _ => .inl hq, h2, fun x hx hl => ?_⟩
    rcases h3 x hx hl with h | ⟨l, h⟩ | h
    · rw [hp] at h; cases h
    · rw [hp] at h; cases h
    · exact .inr (.inr h)
  | create s =>
    simp only [EvLoop.step] at e
    split at e
    · rename_i last hp
      split at e <;> cases e
      rename_i hu
      have hne : ∀ x, x ∈ σ.inbound → x.via ≠ s := fun x hx h => by
        have := h2 x hx; rw [h, hu] at this; cases this
      refine ⟨by simp [hp], fun x hx => by simp [upd, hne x hx, h2 x hx], fun x hx hl => ?_⟩
      rcases h3 x hx hl with h | h | ⟨h, h'⟩
      · exact .inl h
      · exact .inr (.inl h)
      · refine .inr (.inr ⟨by simp [upd, hne x hx, h], ?_⟩)
        rcases h' with h' | h' | h'
        · exact .inl (by simp [upd, hne x hx, h'])
        · exact .inr (.inl h')
        · exact .inr (.inr h')
    · cases e
  | halt s =>
    simp only [EvLoop.step] at e
    split at e
    · rename_i last hp
      split at e <;> cases e
      refine ⟨by simp, h2, fun x hx hl => ?_⟩
      by_cases hxs : x.via = s
      · exact .inr (.inl ⟨last, by rw [hxs]⟩)
      · rcases h3 x hx hl with h | ⟨l, h⟩ | ⟨h, h'⟩
        · rw [hp] at h; cases h
        · rw [hp] at h; cases h
        · refine .inr (.inr ⟨by simp [upd, hxs, h], ?_⟩)
          rcases h' with h' | h' | h'
          · exact .inl h'
          · exact .inr (.inl (by simp [upd, hxs, h']))
          · exact .inr (.inr h')
    · cases e

theorem Inv.run {ls : List Label} : ∀ {σ : State}, Inv r σ → EvLoop.run σ ls = some σ' → Inv r σ' := by
  induction ls with
  | nil => intro σ h e; simp only [EvLoop.run, Option.some.injEq] at e; exact e ▸ h
  | cons l ls ih =>
    intro σ h e
    simp only [EvLoop.run] at e
    split at e
    · cases e
    · rename_i h1; exact ih (h.step h1) e

/-- **C56, libev: no lost wake-up.** In every interleaving: when the event loop runs none of our callbacks, nothing is left in the queue of the
locality (or the mark made by `start` is still there), and for every message in the inbound queue that was sent while the watcher of its supervisor was active, this watcher is still active
and is marked, or a thread is about to mark it. (Partial: a message sent after the supervisor has ended is not awaited, see below.) -/
theorem C56_ev_no_lost_wakeup_partial {ls : List Label} (h : run (State.init r q) ls = some σ) (hp : σ.pc = .idle) :
    (σ.queue = [] ∨ (σ.active r = true ∧ (σ.sent r = true ∨ σ.fed r = true))) ∧ ∀ x, x ∈ σ.inbound → x.late = false →
      σ.active x.via = true ∧ (σ.sent x.via = true ∨ σ.fed x.via = true ∨ ∃ i, σ.threads i = some x.via) := by
  have hi := inv_init.run h
  refine ⟨hi.idle hp, fun x hx hl => ?_⟩
  rcases hi.wake x hx hl with h | ⟨l, h⟩ | h
  · rw [hp] at h; cases h
  · rw [hp] at h; cases h
  · exact h

/-- **C56, libev: every message once and in order.** The messages of the other threads are, in the order of the pushes: those dispatched, those in
the queue of the locality, those in the inbound queue. -/
theorem C56_ev_order {ls : List Label} (h : run (State.init r q) ls = some σ) :
    outsiders σ.taken ++ outsiders σ.queue ++ σ.inbound.map Msg.m = pushed ls := by
  have app : ∀ (a b : List Item), outsiders (a ++ b) = outsiders a ++ outsiders b := by
    intro a b
    induction a with
    | nil => rfl
    | cons x a ih => cases x <;> simp [outsiders, ih]
  have ins : ∀ l : List Nat, outsiders (l.map .inside) = [] := by
    intro l; induction l with
    | nil => rfl
    | cons x l ih => simpa [outsiders] using ih
  have key : ∀ (ls : List Label) (σ σ' : State), run σ ls = some σ' →
      outsiders σ'.taken ++ outsiders σ'.queue ++ σ'.inbound.map Msg.m = (outsiders σ.taken ++ outsiders σ.queue ++ σ.inbound.map Msg.m) ++ pushed ls := by
    intro ls
    induction ls with
    | nil => intro σ σ' e; simp only [EvLoop.run, Option.some.injEq] at e; subst e; simp [pushed]
    | cons l ls ih =>
      intro σ σ' e
      simp only [EvLoop.run] at e
      split at e
      · cases e
      · rename_i τ h1
        rw [ih τ _ e]
        clear e ih
        cases l with
        | push i s m =>
          simp only [step] at h1
          split at h1 <;> cases h1
          simp [pushed]
        | dispatch msgs =>
          simp only [step] at h1
          split at h1 <;> cases h1
          rename_i x q hp hq
          cases x <;> simp [pushed, hq, outsiders, app, ins]
        | pop =>
          simp only [step] at h1
          split at h1
          · rename_i x l hi
            split at h1 <;> cases h1 <;> simp [pushed, hi, app, outsiders]
          · rename_i hi
            split at h1 <;> cases h1 <;> simp [pushed, hi]
        | timer msgs =>
          simp only [step] at h1
          split at h1 <;> cases h1
          simp [pushed, app, ins]
        | _ =>
          simp only [step] at h1
          repeat' split at h1
          all_goals first | cases h1; done | (cases h1; simp [pushed])
  have := key ls (State.init r q) _ h
  simpa [State.init, outsiders, ins] using this

theorem run_append {ls ls' : List Label} : ∀ {σ : State}, run σ (ls ++ ls') = (run σ ls).bind (fun σ' => run σ' ls') := by
  induction ls with
  | nil => intro σ; rfl
  | cons l ls ih =>
    intro σ
    simp only [List.cons_append, run]
    split
    · rfl
    · exact ih

theorem pops (n : Nat) : ∀ {σ : State}, σ.pc = .moving → σ.inbound.length = n →
    run σ (List.replicate n .pop) = some { σ with inbound := [], queue := σ.queue ++ σ.inbound.map (fun x => .outside x.m) } := by
  induction n with
  | zero =>
    intro σ _ h
    rw [List.length_eq_zero_iff] at h
    simp [run, h]; rw [← h]
  | succ n ih =>
    intro σ hp h
    cases hi : σ.inbound with
    | nil => rw [hi] at h; cases h
    | cons x l =>
      rw [hi] at h
      simp only [List.replicate_succ, run, step, hi, hp]
      rw [ih (by simp) (by simpa using h)]
      simp [List.append_assoc]

/-- **C56, libev: waiting messages are taken.** When the loop is idle and all threads have returned from `enqueue`, a message that was not late
makes the loop call back its supervisor's watcher, which moves all waiting messages, in their order, to the queue and goes on to process them. -/
theorem C56_ev_taken {ls : List Label} (h : run (State.init r q) ls = some σ) (hp : σ.pc = .idle) (ht : ∀ i, σ.threads i = none)
    {x : Msg} (hx : x ∈ σ.inbound) (hl : x.late = false) :
    ∃ σ', run σ ([.collect, .callback x.via] ++ List.replicate (σ.inbound.length + 1) .pop) = some σ' ∧
      σ'.pc = .proc false ∧ σ'.inbound = [] ∧ σ'.queue = σ.queue ++ σ.inbound.map (fun x => .outside x.m) := by
  obtain ⟨-, h2⟩ := C56_ev_no_lost_wakeup_partial h hp
  obtain ⟨ha, hw⟩ := h2 x hx hl
  have hf : (σ.fed x.via || (σ.sent x.via && σ.active x.via)) = true := by
    rcases hw with h | h | ⟨i, h⟩
    · simp [h, ha]
    · simp [h]
    · rw [ht i] at h; cases h
  rw [run_append]
  have e1 : run σ [.collect, .callback x.via] = some { σ with
      pc := .moving
      sent := fun s => σ.sent s && !σ.active s
      fed := upd (fun s => σ.fed s || (σ.sent s && σ.active s)) x.via false } := by
    simp only [run, step]
    rw [if_pos hp]
    dsimp only
    rw [if_pos ⟨hp, hf, ha⟩]
  rw [e1]
  simp only [Option.bind]
  rw [List.replicate_succ', run_append, pops σ.inbound.length (σ := { σ with
      pc := .moving
      sent := fun s => σ.sent s && !σ.active s
      fed := upd (fun s => σ.fed s || (σ.sent s && σ.active s)) x.via false }) rfl rfl]
  have hne : σ.inbound.map (fun x => Item.outside x.m) ≠ [] := by
    intro h; rw [List.map_eq_nil_iff] at h; rw [h] at hx; cases hx
  simp [run, step, hne, Option.bind]

/-- **C56 fails for libev after the end of a supervisor:** the nested supervisor 2 has ended, the root supervisor 1 runs: a message sent through 2 stays in
the inbound queue, nothing is marked but a stopped watcher, and the loop has no reason to wake up -/
theorem C56_ev_late_counterexample :
    ((run (State.init 1 []) [.push 1 1 5, .signal 1, .collect, .callback 1, .pop, .pop, .create 2, .dispatch [6], .halt 2, .pop,
      .dispatch [], .return false, .push 1 2 7, .signal 1, .collect]).map (fun σ => decide (σ.pc = .idle ∧ σ.inbound = [⟨7, 2, true⟩] ∧ σ.active 1 = true ∧
        σ.sent 1 = false ∧ σ.fed 1 = false ∧ σ.fed 2 = false))) = some true := by decide

/-- a message is taken by polling; another one pushed meanwhile has its own mark -/
example : ((run (State.init 1 []) [.push 1 1 5, .signal 1, .collect, .callback 1, .pop, .pop, .dispatch [], .return true, .push 2 1 6, .pop, .push 3 1 7, .signal 3, .leave,
    .dispatch [], .return true]).map (fun σ => decide (σ.pc = .idle ∧ σ.inbound = [⟨7, 1, false⟩] ∧ σ.sent 1 = true ∧ σ.threads 2 = some 1 ∧
      σ.taken = [.outside 5, .outside 6]))) = some true := by decide

/-- two threads, one mark: both messages are taken -/
example : ((run (State.init 1 []) ([.push 1 1 5, .push 2 1 6, .signal 2, .signal 1] ++ ([.collect, .callback 1] ++ List.replicate 3 .pop))).map
    (fun σ => decide (σ.queue = [.outside 5, .outside 6] ∧ σ.fed 1 = false))) = some true := by decide

end Verif.EvLoop
