import Verif.Strands.Calls
/-!
# C65: when strands use supervisors that do not exist any more
-/

namespace Verif.Strands

/-- supervisor `s` and the leader of its locality exist -/
def There (T : Topo) (σ : State) (s : Nat) : Prop := σ.gone s = false ∧ σ.gone (T.leader s) = false

/-- the supervisors which pending operations, closures and their execution need -/
def Needed (T : Topo) (σ : State) (s : Nat) : Prop :=
  (∃ c a, (c, a) ∈ σ.io ∧ T.supOf a = s) ∨ (∃ k t, t ∈ σ.tasks k ∧ t.sup T = s) ∨
    (∃ k e, σ.exec k = some e ∧ (e.sup = s ∨ ∃ a ∈ e.pc.actors, T.supOf a = s))

/-- what needs supervisor `s` and does not hold it: pending operations of its actors, their callbacks in the strand or executed there, and its
actors among those to which a closure of another supervisor delivers a message -/
def Unheld (T : Topo) (σ : State) (s : Nat) : Prop :=
  (∃ c a, (c, a) ∈ σ.io ∧ T.supOf a = s) ∨ (∃ k c a err, Task.fwd c a err ∈ σ.tasks k ∧ T.supOf a = s) ∨
    (∃ k e, σ.exec k = some e ∧ ¬ (e.own = true ∧ e.sup = s) ∧ (e.sup = s ∨ ∃ a ∈ e.pc.actors, T.supOf a = s))

/-- what the user has to take care of: a supervisor is released when its actors have no operations left, and those of its locality below it
have neither operations nor closures; its own closures and timers hold it.  Nothing is sent to it, started for it or subscribed to something by its actors afterwards -/
def Careful (T : Topo) (σ : State) : Label → Prop
  | .destroy s => ¬ Unheld T σ s ∧ ∀ s', Needed T σ s' → s' ≠ s → T.leader s' ≠ s
  | .begin _ a => There T σ (T.supOf a)
  | .expire a => There T σ (T.supOf a)
  | .enqueue s _ => There T σ s
  | .dispatch k subs _ => ∀ e m q, σ.exec k = some e → σ.queue (T.leader e.sup) = m :: q →
      There T σ (m.dest T) ∧ ∀ a ∈ subs, There T σ (T.supOf a)
  | _ => True

/-- .. all the time -/
def CarefulRun (T : Topo) : State → List Label → Prop
  | _, [] => True
  | σ, l :: ls => Careful T σ l ∧ ∀ σ', step T σ l = .ok σ' → CarefulRun T σ' ls

def Alive (T : Topo) (σ : State) : Prop := ∀ s, Needed T σ s → There T σ s

theorem Unheld.needed {T : Topo} {σ : State} {s : Nat} (h : Unheld T σ s) : Needed T σ s := by
  rcases h with h | ⟨k, c, a, err, h, hs⟩ | ⟨k, e, h, -, hs⟩
  · exact .inl h
  · exact .inr (.inl ⟨k, _, h, hs⟩)
  · exact .inr (.inr ⟨k, e, h, hs⟩)

theorem exist_iff {T : Topo} {σ : State} {s : Nat} : exist T s σ = true ↔ There T σ s := by
  simp [exist, There]

theorem Alive.mono {T : Topo} {σ σ' : State} (h : Alive T σ) (hg : σ'.gone = σ.gone) (hn : ∀ s, Needed T σ' s → Needed T σ s ∨ There T σ s) : Alive T σ' := by
  intro s hs
  have : There T σ s := by
    rcases hn s hs with h1 | h1
    · exact h s h1
    · exact h1
  simpa [There, hg] using this

theorem needed_defer {T : Topo} {σ : State} {k : Nat} {t : Task} {s : Nat} (h : Needed T (defer k t σ) s) : Needed T σ s ∨ t.sup T = s := by
  rcases h with h | ⟨k', t', ht, hs⟩ | h
  · exact .inl (.inl h)
  · simp only [defer, upd] at ht
    split at ht
    · rename_i hk
      rcases List.mem_append.1 ht with h | h
      · exact .inl (.inr (.inl ⟨k, t', h, hs⟩))
      · simp at h; subst h; exact .inr hs
    · exact .inl (.inr (.inl ⟨k', t', ht, hs⟩))
  · exact .inl (.inr (.inr h))

theorem Alive.enqueue {T : Topo} {σ : State} (h : Alive T σ) {s : Nat} {m : Msg} (hs : There T σ s) :
    ∃ σ', enqueue T s m σ = .ok σ' ∧ Alive T σ' ∧ σ'.gone = σ.gone ∧ σ'.exec = σ.exec := by
  unfold Strands.enqueue
  rw [if_pos (exist_iff.2 hs)]
  refine ⟨_, rfl, ?_, rfl, rfl⟩
  refine h.mono rfl ?_
  intro s' h'
  rcases needed_defer h' with h1 | h1
  · exact .inl h1
  · cases h1; exact .inr hs

theorem Alive.deliverExternal {T : Topo} {m : Nat} : ∀ {l : List Nat} {σ : State}, Alive T σ → (∀ a ∈ l, There T σ (T.supOf a)) →
    ∃ σ', deliverExternal T m l σ = .ok σ' ∧ Alive T σ' ∧ σ'.gone = σ.gone ∧ σ'.exec = σ.exec := by
  intro l
  induction l with
  | nil => intro σ h _; exact ⟨σ, rfl, h, rfl, rfl⟩
  | cons a l ih =>
    intro σ h hl
    obtain ⟨σ₁, e1, h1, g1, x1⟩ := h.enqueue (m := .hcall m a) (hl a (by simp))
    obtain ⟨σ₂, e2, h2, g2, x2⟩ := ih h1 (by intro b hb; have := hl b (by simp [hb]); simpa [There, g1] using this)
    refine ⟨σ₂, ?_, h2, g2.trans g1, x2.trans x1⟩
    simp only [Strands.deliverExternal, e1]
    exact e2

theorem needed_setPc {T : Topo} {σ : State} {k : Nat} {e : Exec} {p : Pc} {s : Nat} (h : Needed T (setPc k e p σ) s) :
    Needed T σ s ∨ e.sup = s ∨ ∃ a ∈ p.actors, T.supOf a = s := by
  rcases h with h | h | ⟨k', e', he, hs⟩
  · exact .inl (.inl h)
  · exact .inl (.inr (.inl h))
  · simp only [setPc, upd] at he
    split at he
    · cases he; exact .inr hs
    · exact .inl (.inr (.inr ⟨k', e', he, hs⟩))

theorem Alive.setPc {T : Topo} {σ : State} (h : Alive T σ) {k : Nat} {e e' : Exec} (he : σ.exec k = some e) (hs : e'.sup = e.sup) (p : Pc)
    (hp : ∀ a ∈ p.actors, There T σ (T.supOf a)) : Alive T (setPc k e' p σ) := by
  refine h.mono rfl ?_
  intro s h'
  rcases needed_setPc h' with h1 | h1 | ⟨a, ha, h1⟩
  · exact .inl h1
  · exact .inl (.inr (.inr ⟨k, e, he, .inl (hs ▸ h1)⟩))
  · exact .inr (h1 ▸ hp a ha)

theorem Alive.finish {T : Topo} {σ σ' : State} (h : Alive T σ) {k t : Nat} (e : finish k t σ = .ok σ') : Alive T σ' := by
  unfold Strands.finish at e
  split at e
  · injection e with e
    subst e
    refine h.mono rfl ?_
    intro s h'
    rcases h' with h' | h' | ⟨k', e', he, hs⟩
    · exact .inl (.inl h')
    · exact .inl (.inr (.inl h'))
    · simp only [upd] at he
      split at he
      · cases he
      · exact .inl (.inr (.inr ⟨k', e', he, hs⟩))
  · cases e

theorem finish_ne {k t : Nat} {σ : State} : finish k t σ ≠ .error .dangling := by
  unfold finish
  split <;> simp

theorem Alive.same {T : Topo} {σ σ' : State} (h : Alive T σ) (h1 : σ'.gone = σ.gone) (h2 : σ'.io = σ.io) (h3 : σ'.tasks = σ.tasks) (h4 : σ'.exec = σ.exec) :
    Alive T σ' := by
  refine h.mono h1 ?_
  intro s hs
  refine .inl ?_
  simpa [Needed, h2, h3, h4] using hs

/-- a careful step keeps everything alive and uses nothing that is gone -/
theorem Alive.step {T : Topo} {σ : State} (h : Alive T σ) (hinv : Inv T σ) {l : Label} (hc : Careful T σ l) :
    step T σ l ≠ .error .dangling ∧ ∀ σ', step T σ l = .ok σ' → Alive T σ' := by
  have hex : ∀ {k : Nat} {f : Exec → Except Err State}, (∀ e, σ.exec k = some e → There T σ e.sup → f e ≠ .error .dangling ∧ ∀ σ', f e = .ok σ' → Alive T σ') →
      onExec T σ k f ≠ .error .dangling ∧ ∀ σ', onExec T σ k f = .ok σ' → Alive T σ' := by
    intro k f hf
    unfold onExec
    cases he : σ.exec k with
    | none => simp
    | some e =>
      have ht : There T σ e.sup := h _ (.inr (.inr ⟨k, e, he, .inl rfl⟩))
      simp only [exist_iff.2 ht, if_true]
      exact hf e he ht
  cases l with
  | send k m =>
    refine hex ?_
    intro e he _
    cases hr : e.pc.running with
    | none => simp
    | some a =>
      have ha : a ∈ e.pc.actors := by
        cases hp : e.pc <;> simp [hp, Pc.running] at hr <;> simp [Pc.actors, hr]
      have ht : There T σ (T.supOf a) := h _ (.inr (.inr ⟨k, e, he, .inr ⟨a, ha, rfl⟩⟩))
      simp only [put, exist_iff.2 ht, if_true]
      refine ⟨by simp, ?_⟩
      intro σ' e'; injection e' with e'; subst e'
      exact h.same rfl rfl rfl rfl
  | begin c a =>
    refine ⟨by simp [Strands.step], ?_⟩
    intro σ' e'; injection e' with e'; subst e'
    refine h.mono rfl ?_
    intro s hs
    rcases hs with ⟨c', a', hm, hs⟩ | h1 | h1
    · simp at hm
      rcases hm with ⟨rfl, rfl⟩ | hm
      · exact .inr (hs ▸ hc)
      · exact .inl (.inl ⟨c', a', hm, hs⟩)
    · exact .inl (.inr (.inl h1))
    · exact .inl (.inr (.inr h1))
  | complete c a ec =>
    simp only [Strands.step]
    split
    · rename_i hm
      have ht : There T σ (T.supOf a) := h _ (.inl ⟨c, a, hm, rfl⟩)
      unfold forward
      simp only [ht.1, Bool.false_eq_true, if_false]
      have key : ∀ b, Alive T (defer (T.strand (T.supOf a)) (.fwd c a b) { { σ with io := σ.io.erase (c, a) } with log := Ev.done c a ec :: σ.log }) := by
        intro b
        refine h.mono rfl ?_
        intro s hs
        rcases needed_defer hs with h1 | h1
        · rcases h1 with ⟨c', a', hm', hs'⟩ | h1 | h1
          · exact .inl (.inl ⟨c', a', List.mem_of_mem_erase hm', hs'⟩)
          · exact .inl (.inr (.inl h1))
          · exact .inl (.inr (.inr h1))
        · cases h1; exact .inr ht
      split
      · exact ⟨by simp, by intro σ' e'; injection e' with e'; subst e'; exact key true⟩
      · exact ⟨by simp, by intro σ' e'; injection e' with e'; subst e'; exact key false⟩
    · simp
  | expire a =>
    refine ⟨by simp [Strands.step], ?_⟩
    intro σ' e'; injection e' with e'; subst e'
    refine h.mono rfl ?_
    intro s hs
    rcases needed_defer hs with h1 | h1
    · exact .inl h1
    · cases h1; exact .inr hc
  | enqueue s m =>
    obtain ⟨σ₁, e1, h1, -, -⟩ := h.enqueue (m := m) hc
    simp only [Strands.step, e1]
    exact ⟨by simp, by intro σ' e'; injection e' with e'; subst e'; exact h1⟩
  | take k t there =>
    simp only [Strands.step]
    split
    · rename_i task ts _ he hts
      refine ⟨by simp, ?_⟩
      intro σ' e'; injection e' with e'; subst e'
      have ht : There T σ (task.sup T) := h _ (.inr (.inl ⟨k, task, by rw [hts]; simp, rfl⟩))
      have hb : ∀ s, Needed T { σ with tasks := upd σ.tasks k ts } s → Needed T σ s := by
        intro s hs
        rcases hs with h1 | ⟨k', t', ht', hs'⟩ | h1
        · exact .inl h1
        · simp only [upd] at ht'
          split at ht'
          · rename_i hk; exact .inr (.inl ⟨k, t', by rw [hts]; simp [ht'], hs'⟩)
          · exact .inr (.inl ⟨k', t', ht', hs'⟩)
        · exact .inr (.inr h1)
      have hnew : ∀ (x : Exec) (lg : List Ev), x.sup = task.sup T → (∀ a ∈ x.pc.actors, T.supOf a = task.sup T) →
          Alive T { { σ with tasks := upd σ.tasks k ts } with log := lg, threads := upd σ.threads t (some k), exec := upd σ.exec k (some x) } := by
        intro x lg hx ha
        refine h.mono rfl ?_
        intro s hs
        rcases hs with h1 | h1 | ⟨k', e', he', hs'⟩
        · exact .inl (hb s (.inl h1))
        · exact .inl (hb s (.inr (.inl h1)))
        · simp only [upd] at he'
          split at he'
          · cases he'
            rcases hs' with h2 | ⟨a, ha', h2⟩
            · rw [← h2, hx]; exact .inr ht
            · rw [← h2, ha a ha']; exact .inr ht
          · exact .inl (.inr (.inr ⟨k', e', he', hs'⟩))
      cases task with
      | fwd c a err => exact hnew ⟨T.supOf a, false, true, .callback a⟩ _ rfl (by intro b hb; simp [Pc.actors] at hb; rw [hb]; rfl)
      | timer a =>
        simp only [start]
        split
        · exact hnew ⟨T.supOf a, true, false, .callback a⟩ _ rfl (by intro b hb; simp [Pc.actors] at hb; rw [hb]; rfl)
        · exact h.mono rfl (fun s hs => .inl (hb s hs))
      | process s => exact hnew ⟨s, true, false, .moving⟩ _ rfl (by intro b hb; simp [Pc.actors] at hb)
    · simp
  | back k =>
    refine hex ?_
    intro e he _
    split
    · refine ⟨by simp, ?_⟩
      intro σ' e'; injection e' with e'; subst e'
      exact h.setPc he rfl _ (by split <;> simp [Pc.actors])
    · simp
  | pop k t =>
    refine hex ?_
    intro e he _
    simp only
    split
    · split
      · refine ⟨by simp, ?_⟩
        intro σ' e'; injection e' with e'; subst e'
        exact h.same rfl rfl rfl rfl
      · split
        · refine ⟨by simp, ?_⟩
          intro σ' e'; injection e' with e'; subst e'; exact h
        · split
          · exact ⟨finish_ne, fun σ' e' => h.finish e'⟩
          · refine ⟨by simp, ?_⟩
            intro σ' e'; injection e' with e'; subst e'
            exact h.setPc he rfl _ (by simp [Pc.actors])
    · simp
  | dispatch k subs alive =>
    refine hex ?_
    intro e he hte
    split
    · unfold dispatch
      simp only
      cases hq : σ.queue (T.leader e.sup) with
      | nil => simp
      | cons msg q =>
        simp only
        obtain ⟨hd, hsub⟩ := hc e msg q he hq
        have hσ : Alive T { σ with queue := upd σ.queue (T.leader e.sup) q, cur := upd σ.cur k msg } := h.same rfl rfl rfl rfl
        split
        · cases msg with
          | user m s =>
            simp only
            obtain ⟨σ₁, e1, h1, g1, x1⟩ := Alive.deliverExternal (m := m)
              (l := subs.filter (fun a => decide (T.strand (T.supOf a) ≠ T.strand (T.leader e.sup)))) hσ
              (by intro a ha; exact hsub a ((List.mem_filter.1 ha).1))
            rw [e1]
            refine ⟨by simp, ?_⟩
            intro σ' e'; injection e' with e'; subst e'
            refine h1.setPc (e := e) (by rw [x1]; exact he) rfl _ ?_
            intro a ha
            simp only [Pc.actors] at ha
            have := hsub a ((List.mem_filter.1 ha).1)
            simpa [There, g1] using this
          | hcall m a =>
            refine ⟨by simp, ?_⟩
            intro σ' e'; injection e' with e'; subst e'
            refine hσ.setPc (e := e) he rfl _ ?_
            intro b hb
            simp only [Pc.actors] at hb
            split at hb
            · simp at hb; rw [hb]; exact hd
            · cases hb
        · obtain ⟨σ₁, e1, h1, -, -⟩ := hσ.enqueue (m := msg) hd
          rw [e1]
          exact ⟨by simp, by intro σ' e'; injection e' with e'; subst e'; exact h1⟩
    · simp
  | call k =>
    refine hex ?_
    intro e he _
    split
    · rename_i a hs hp
      refine ⟨by simp, ?_⟩
      intro σ' e'; injection e' with e'; subst e'
      have := h.setPc (e' := e) he rfl (.handler a hs) (by intro b hb; exact h _ (.inr (.inr ⟨k, e, he, .inr ⟨b, by rw [hp]; exact hb, rfl⟩⟩)))
      exact this.same rfl rfl rfl rfl
    · refine ⟨by simp, ?_⟩
      intro σ' e'; injection e' with e'; subst e'
      exact h.setPc he rfl _ (by simp [Pc.actors])
    · simp
  | handled k =>
    refine hex ?_
    intro e he _
    split
    · rename_i a hs hp
      refine ⟨by simp, ?_⟩
      intro σ' e'; injection e' with e'; subst e'
      exact h.setPc he rfl _ (by intro b hb; exact h _ (.inr (.inr ⟨k, e, he, .inr ⟨b, by rw [hp]; exact List.mem_cons_of_mem _ hb, rfl⟩⟩)))
    · simp
  | «return» k t poll =>
    refine hex ?_
    intro e he _
    split
    · split
      · refine ⟨by simp, ?_⟩
        intro σ' e'; injection e' with e'; subst e'
        exact h.setPc (e' := { e with last := true }) he rfl .polling (by simp [Pc.actors])
      · exact ⟨finish_ne, fun σ' e' => h.finish e'⟩
    · simp
  | leave k t =>
    refine hex ?_
    intro e he _
    split
    · split
      · exact ⟨finish_ne, fun σ' e' => h.finish e'⟩
      · refine ⟨by simp, ?_⟩
        intro σ' e'; injection e' with e'; subst e'
        exact h.setPc he rfl _ (by simp [Pc.actors])
    · simp
  | destroy s =>
    simp only [Strands.step]
    split
    · rename_i hf
      refine ⟨by simp, ?_⟩
      intro σ' e'; injection e' with e'; subst e'
      intro s' hs'
      have hs2 : Needed T σ s' := hs'
      have h1 := h s' hs2
      have hne : s' ≠ s := by
        intro he
        subst he
        simp only [free, Bool.and_eq_true, List.all_eq_true, Bool.not_eq_true'] at hf
        rcases hs2 with h2 | ⟨k, t, ht, hs⟩ | ⟨k, e, he, hs⟩
        · exact hc.1 (.inl h2)
        · have hk := hinv.tk k t ht
          rw [hs] at hk
          cases t with
          | fwd c a err => exact hc.1 (.inr (.inl ⟨k, c, a, err, ht, hs⟩))
          | timer a =>
            have := hf.1 (.timer a) (hk ▸ ht)
            simp [Task.holds] at this
            exact this hs
          | process x =>
            have := hf.1 (.process x) (hk ▸ ht)
            simp [Task.holds] at this
            exact this hs
        · by_cases ho : e.own = true ∧ e.sup = s'
          · have hk := hinv.ex k e he
            rw [ho.2] at hk
            have := hf.2
            rw [hk, he] at this
            simp [ho.1, ho.2] at this
          · exact hc.1 (.inr (.inr ⟨k, e, he, ho, hs⟩))
      have h3 := hc.2 s' hs2 hne
      exact ⟨by simp only [upd, if_neg hne]; exact h1.1, by simp only [upd, if_neg h3]; exact h1.2⟩
    · simp

/-- **C65** (partial: for users who take care, see `Careful`) the strands use no supervisor that does not exist any more. -/
theorem C65_exist_partial {T : Topo} {ls : List Label} (h : CarefulRun T State.init ls) : run T State.init ls ≠ .error .dangling := by
  have key : ∀ (ls : List Label) (σ : State), Inv T σ → Alive T σ → CarefulRun T σ ls → run T σ ls ≠ .error .dangling := by
    intro ls
    induction ls with
    | nil => intro σ _ _ _; simp [run]
    | cons l ls ih =>
      intro σ hi ha hc
      have hs := ha.step hi hc.1
      simp only [run]
      cases he : step T σ l with
      | error err => simp only; intro e; injection e with e; subst e; exact hs.1 he
      | ok σ' => exact ih σ' (hi.step he) (hs.2 σ' he) (hc.2 σ' he)
  refine key ls State.init (Inv.init T) ?_ h
  intro s hs
  rcases hs with ⟨c, a, h, -⟩ | ⟨k, t, h, -⟩ | ⟨k, e, h, -⟩ <;> simp [State.init] at h

/-- supervisor 0 (strand 0) has the child 1 (strand 1) which has the child 2 (strand 1); actor `a` belongs to supervisor `a` -/
def topo : Topo where
  strand s := if s = 0 then 0 else 1
  parent s := if s = 2 then some 1 else if s = 1 then some 0 else none
  supOf a := a
  older := by
    intro s p h
    split at h
    · injection h with h; omega
    · split at h
      · injection h with h; omega
      · cases h

/-- **C65** A forwarder holds the actor, not its supervisor: an operation that completes after the supervisor of the actor has been released uses
a dangling pointer (`forwarder.hpp:132-133`), although the actor exists. -/
theorem C65_pending_operation_counterexample :
    run topo State.init [.begin 7 1, .destroy 1, .complete 7 1 false] = .error .dangling := rfl

/-- **C65** .. and so does a result that has already been handed to the strand (`forwarder.hpp:142`). -/
theorem C65_pending_callback_counterexample :
    run topo State.init [.begin 7 1, .complete 7 1 false, .destroy 1, .take 1 0 true, .back 1] = .error .dangling := rfl

/-- **C65** A closure that processes messages holds the supervisor through which the message came, not the locality leader: a late message to an ended
nested supervisor of a locality whose leader is then released makes the closure use a dangling pointer (`supervisor_asio.cpp:109-110`). -/
theorem C65_late_message_counterexample :
    run topo State.init [.enqueue 2 (.user 7 2), .destroy 1, .take 1 0 true, .pop 1 0] = .error .dangling := rfl

/-- **C65** An address refers to its supervisor by a plain reference (`address.hpp:35`): sending to an address of a released supervisor of
another locality follows it (`supervisor.h:464`). -/
theorem C65_late_send_counterexample : run topo State.init [.destroy 1, .enqueue 1 (.user 7 1)] = .error .dangling := rfl

end Verif.Strands
