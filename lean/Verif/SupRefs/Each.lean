import Verif.SupRefs.Props
/-!
# Timers are called, the stopped watcher is not (C68)
-/

namespace Verif.SupRefs

theorem release_keeps {s t : State} (h : release s = .ok t) :
    t.ext = s.ext ∧ t.timers = s.timers ∧ t.armed = s.armed ∧ t.waits = s.waits ∧ t.defers = s.defers ∧ t.tasks = s.tasks ∧ t.watching = s.watching ∧
      t.sent = s.sent ∧ t.raws = s.raws ∧ t.stack = s.stack := by
  unfold release at h
  split at h
  · cases h
  · split at h <;> injection h with h <;> subst h <;> simp

theorem erase_same {b : Backend} {id : Nat} {s t : State} (h : eraseTimer b id s = .ok t) :
    t.timers = s.timers.erase id ∧ t.armed = s.armed ∧ t.watching = s.watching ∧ t.sent = s.sent ∧ t.stack = s.stack := by
  unfold eraseTimer at h
  cases b <;> dsimp only at h
  · injection h with h; subst h; simp
  · obtain ⟨_, a, b, _, _, _, c, d, _, e⟩ := release_keeps h; exact ⟨a, b, c, d, e⟩
  · obtain ⟨_, a, b, _, _, _, c, d, _, e⟩ := release_keeps h; exact ⟨a, b, c, d, e⟩
  · injection h with h; subst h; simp

theorem cancel_same {b : Backend} {id : Nat} {s t : State} (h : cancelEnd b id s = .ok t) :
    t.timers = s.timers.erase id ∧ t.armed = s.armed ∧ t.watching = s.watching ∧ t.sent = s.sent ∧ t.stack = s.stack := by
  unfold cancelEnd at h
  split at h
  · cases h
  · rename_i u hu
    obtain ⟨a1, a2, a3, a4, a5⟩ := erase_same hu
    cases b <;> dsimp only at h
    · obtain ⟨_, a, b, _, _, _, c, d, _, e⟩ := release_keeps h; exact ⟨a.trans a1, b.trans a2, c.trans a3, d.trans a4, e.trans a5⟩
    · obtain ⟨_, a, b, _, _, _, c, d, _, e⟩ := release_keeps h; exact ⟨a.trans a1, b.trans a2, c.trans a3, d.trans a4, e.trans a5⟩
    · injection h with h; subst h; exact ⟨a1, a2, a3, a4, a5⟩
    · injection h with h; subst h; exact ⟨a1, a2, a3, a4, a5⟩

/-- a new call of `do_process` may have begun -/
theorem trig_same {b : Backend} {id : Nat} {s t : State} (h : trigEnd b id s = .ok t) :
    t.timers = s.timers.erase id ∧ t.armed = s.armed ∧ t.watching = s.watching ∧ t.sent = s.sent ∧
      (t.stack = s.stack ∨ t.stack = .proc .timerHeld :: s.stack ∨ t.stack = .proc .timerBare :: s.stack) := by
  unfold trigEnd at h
  split at h
  · cases h
  · split at h
    · cases h
    · rename_i u hu
      obtain ⟨a1, a2, a3, a4, a5⟩ := erase_same hu
      cases b <;> dsimp only at h
      · injection h with h; subst h; exact ⟨a1, a2, a3, a4, by simp [a5]⟩
      · split at h
        · cases h
        · obtain ⟨_, a, b, _, _, _, c, d, _, e⟩ := release_keeps h; exact ⟨a.trans a1, b.trans a2, c.trans a3, d.trans a4, .inl (e.trans a5)⟩
      · split at h
        · cases h
        · injection h with h; subst h; exact ⟨a1, a2, a3, a4, by simp [a5]⟩
      · injection h with h; subst h; exact ⟨a1, a2, a3, a4, by simp [a5]⟩

theorem proc_same {f : From} {s t : State} (h : procEnd f s = .ok t) :
    t.timers = s.timers ∧ t.armed = s.armed ∧ t.watching = s.watching ∧ t.sent = s.sent ∧ t.stack = s.stack := by
  unfold procEnd at h
  cases f <;> dsimp only at h
  all_goals first
    | (injection h with h; subst h; exact ⟨rfl, rfl, rfl, rfl, rfl⟩)
    | (split at h
       · cases h
       · first
         | (injection h with h; subst h; exact ⟨rfl, rfl, rfl, rfl, rfl⟩)
         | (obtain ⟨_, a, b, _, _, _, c, d, _, e⟩ := release_keeps h; exact ⟨a, b, c, d, e⟩))

/-- every timer is waited for by the event loop or its callback runs, not both, and it is there once -/
def Waited (s : State) : Prop := ∀ id, s.timers.count id = s.armed.count id + (busy s).count id ∧ s.timers.count id ≤ 1

theorem busy_trig (s : State) (id : Nat) (fs : List Frame) (h : s.stack = .trig id :: fs) : busy s = id :: busy { s with stack := fs } := by
  simp [busy, h]

theorem busy_cancel (s : State) (id : Nat) (fs : List Frame) (h : s.stack = .cancel id :: fs) : busy s = id :: busy { s with stack := fs } := by
  simp [busy, h]

theorem busy_proc (s : State) (f : From) (fs : List Frame) (h : s.stack = .proc f :: fs) : busy s = busy { s with stack := fs } := by
  simp [busy, h]

theorem busy_of_stack (s t : State) (h : t.stack = s.stack) : busy t = busy s := by
  simp [busy, h]

theorem waited_step {b : Backend} (hb : b ≠ .asio) {raw : Bool} {s t : State} (o : Op) (i : Waited s) (h : step b raw s o = .ok t) : Waited t := by
  have same : ∀ {u : State}, u.timers = s.timers → u.armed = s.armed → u.stack = s.stack → Waited u := by
    intro u a b c id
    have := i id
    simp only [busy, a, b, c] at this ⊢; exact this
  cases o with
  | hold =>
    simp only [step] at h
    split at h <;> injection h with h <;> subst h
    · exact i
    · exact same rfl rfl rfl
  | drop =>
    simp only [step] at h
    split at h
    · injection h with h; subst h; exact i
    · obtain ⟨_, a, b, _, _, _, _, _, _, e⟩ := release_keeps h; exact same a b e
  | start id =>
    simp only [step] at h
    split at h
    · injection h with h; subst h; exact i
    · rename_i hn
      injection h with h; subst h
      have h0 : s.timers.count id = 0 := List.count_eq_zero.2 (fun hm => hn (.inr (.inl hm)))
      intro j
      have := i j
      cases b <;> simp [startTimer, addRef, busy, List.count_cons] at hb ⊢ <;> simp only [busy] at this
      all_goals
        by_cases e : id = j
        · subst e; simp; omega
        · simp [e]; omega
  | cancel id =>
    simp only [step] at h
    split at h
    · injection h with h; subst h; exact i
    · rename_i hn
      injection h with h; subst h
      intro j
      have hij := i j
      have hid := i id
      have hm : id ∈ s.timers := by
        rcases Decidable.em (id ∈ s.timers) with h | h
        · exact h
        · exact absurd (.inr (.inl h)) hn
      have hm' : 0 < s.timers.count id := List.count_pos_iff.2 hm
      have hz : (busy s).count id = 0 := List.count_eq_zero.2 (fun h => hn (.inr (.inr h)))
      have eb : busy { s with armed := s.armed.erase id, stack := .cancel id :: s.stack } = id :: busy s := rfl
      simp only [eb, List.count_cons, List.count_erase]
      by_cases e : id = j
      · subst e; simp; omega
      · simp [e]; omega
  | ret =>
    simp only [step] at h
    split at h
    · injection h with h; subst h; exact i
    · rename_i id fs hst
      obtain ⟨a1, a2, _, _, a5⟩ := trig_same h
      have eb : busy t = busy { s with stack := fs } := by
        rcases a5 with a5 | a5 | a5
        · exact busy_of_stack _ _ a5
        · exact busy_proc t _ fs a5
        · exact busy_proc t _ fs a5
      intro j
      have hij := i j
      have es : busy s = id :: busy t := by rw [eb]; exact busy_trig s id fs hst
      rw [es] at hij
      simp only [List.count_cons] at hij
      simp only [a1, a2, List.count_erase]
      by_cases e : id = j
      · subst e; simp at hij ⊢; omega
      · simp [e] at hij ⊢; omega
    · rename_i id fs hst
      split at h
      · cases h
      · obtain ⟨a1, a2, _, _, a5⟩ := cancel_same h
        have eb : busy t = busy { s with stack := fs } := busy_of_stack _ _ a5
        intro j
        have hij := i j
        have es : busy s = id :: busy t := by rw [eb]; exact busy_cancel s id fs hst
        rw [es] at hij
        simp only [List.count_cons] at hij
        simp only [a1, a2, List.count_erase]
        by_cases e : id = j
        · subst e; simp at hij ⊢; omega
        · simp [e] at hij ⊢; omega
    · rename_i f fs hst
      obtain ⟨a1, a2, _, _, a5⟩ := proc_same h
      intro j
      have hij := i j
      have es : busy s = busy t := by rw [busy_proc s f fs hst]; exact (busy_of_stack _ _ a5).symm
      rw [es] at hij
      simp only [a1, a2]; exact hij
  | fire id =>
    simp only [step] at h
    split at h
    · injection h with h; subst h; exact i
    · rename_i hst
      have hst : s.stack = [] := Decidable.byContradiction hst
      cases b with
      | asio => exact absurd rfl hb
      | _ =>
        try dsimp only at h
        split at h
        · injection h with h; subst h; exact i
        · rename_i hm
          have hm : id ∈ s.armed := Decidable.byContradiction hm
          have hm' : 0 < s.armed.count id := List.count_pos_iff.2 hm
          split at h
          · cases h
          · injection h with h; subst h
            intro j
            have hij := i j
            have hid := i id
            simp [busy, hst] at hij hid
            simp only [busy, List.filterMap_cons, List.filterMap_nil, List.count_cons, List.count_erase]
            by_cases e : id = j
            · subst e; simp; omega
            · simp [e]; omega
  | complete id err =>
    simp only [step] at h
    split at h
    · rename_i hc; exact absurd hc.1 hb
    · injection h with h; subst h; exact i
  | post =>
    simp only [step] at h
    split at h <;> injection h with h <;> subst h
    · exact i
    · cases b <;> simp only [post]
      · exact same rfl rfl rfl
      · split <;> exact same rfl rfl rfl
      · exact same rfl rfl rfl
      · exact same rfl rfl rfl
  | runTask =>
    simp only [step] at h
    split at h
    · injection h with h; subst h; exact i
    · rename_i hst
      have hst : s.stack = [] := by
        rcases Decidable.em (s.stack = []) with h | h
        · exact h
        · exact absurd (.inl h) hst
      split at h
      · cases h
      · injection h with h; subst h
        intro j; have := i j; simp [busy, hst] at this ⊢; exact this
  | async =>
    simp only [step] at h
    split at h
    · injection h with h; subst h; exact i
    · rename_i hst
      have hst : s.stack = [] := by
        rcases Decidable.em (s.stack = []) with h | h
        · exact h
        · exact absurd (.inr (.inl h)) hst
      split at h
      · cases h
      · injection h with h; subst h
        intro j; have := i j; simp [busy, hst] at this ⊢; exact this
  | callback =>
    simp only [step] at h
    split at h
    · injection h with h; subst h; exact i
    · rename_i hst
      have hst : s.stack = [] := by
        rcases Decidable.em (s.stack = []) with h | h
        · exact h
        · exact absurd (.inl h) hst
      split at h
      · cases h
      · injection h with h; subst h
        intro j; have := i j; simp [busy, hst] at this ⊢; exact this
  | process =>
    simp only [step] at h
    split at h <;> injection h with h <;> subst h
    · exact i
    · intro j; have := i j; simp [busy] at this ⊢; exact this
  | finish =>
    simp only [step] at h
    split at h <;> injection h with h <;> subst h
    · exact i
    · exact same rfl rfl rfl

theorem waited_run {b : Backend} (hb : b ≠ .asio) : ∀ (os : List (Op × Bool)) {s t : State}, Waited s → run b s os = .ok t → Waited t
  | [], s, t, i, h => by injection h with h; subst h; exact i
  | (o, raw) :: os, s, t, i, h => by
    simp only [run] at h
    split at h
    · cases h
    · rename_i u hu; exact waited_run hb os (waited_step hb o i hu) h

/-- **C68, every timer is called.** libev, FLTK, wx: as long as a timer is in the map of the supervisor and is not being called or cancelled, the
event loop waits for it, and when it expires with no call under way, its callback begins. -/
theorem C68_timer_called {b : Backend} (hb : b ≠ .asio) {os : List (Op × Bool)} {s : State} (h : run b .init os = .ok s) (id : Nat)
    (hm : id ∈ s.timers) (hs : s.stack = []) (raw : Bool) : ∃ t, step b raw s (.fire id) = .ok t ∧ t.stack = [.trig id] ∧ t.timers = s.timers := by
  have i := waited_run hb os (s := .init) (fun id => by simp [State.init, busy]) h
  have hd := C68_pending_keeps h (.inl ⟨hb, List.ne_nil_of_mem hm⟩)
  have hid := i id
  have : 0 < s.timers.count id := List.count_pos_iff.2 hm
  simp [busy, hs] at hid
  have ha : id ∈ s.armed := List.count_pos_iff.1 (by omega)
  cases b with
  | asio => exact absurd rfl hb
  | _ => exact ⟨{ s with armed := s.armed.erase id, stack := [.trig id] }, by simp [step, hs, ha, hd], rfl, rfl⟩

/-- **C68, nothing else is called.** libev, FLTK, wx: when the event loop begins the callback of a timer, it is a timer of the map, it is there
once and has been neither called nor cancelled. -/
theorem C68_called_timer {b : Backend} (hb : b ≠ .asio) {os : List (Op × Bool)} {s t : State} (h : run b .init os = .ok s) (id : Nat) (raw : Bool)
    (ht : step b raw s (.fire id) = .ok t) (hc : t ≠ s) : id ∈ s.timers ∧ s.timers.count id = 1 ∧ id ∉ busy s ∧ t.stack = [.trig id] := by
  have i := waited_run hb os (s := .init) (fun id => by simp [State.init, busy]) h
  have hid := i id
  simp only [step] at ht
  split at ht
  · injection ht with ht; exact absurd ht.symm hc
  · cases b with
    | asio => exact absurd rfl hb
    | _ =>
      try dsimp only at ht
      split at ht
      · injection ht with ht; exact absurd ht.symm hc
      · rename_i hm
        have hm : id ∈ s.armed := Decidable.byContradiction hm
        have hm' : 0 < s.armed.count id := List.count_pos_iff.2 hm
        split at ht
        · cases ht
        · injection ht with ht; subst ht
          exact ⟨List.count_pos_iff.1 (by omega), by omega, fun hb => by have := List.count_pos_iff.2 hb; omega, rfl⟩

theorem stopped_step {b : Backend} {raw : Bool} {s : State} (o : Op) (hw : s.watching = false) (hs : .proc .async ∉ s.stack) :
    match step b raw s o with
    | .ok t => t.watching = false ∧ .proc .async ∉ t.stack
    | .error f => f ≠ .async := by
  have rel : ∀ {u t : State}, release u = .ok t → t.watching = u.watching ∧ t.stack = u.stack := fun h => by
    obtain ⟨_, _, _, _, _, _, c, _, _, e⟩ := release_keeps h; exact ⟨c, e⟩
  have rele : ∀ {u : State} {f : Fault}, release u = .error f → f = .double := fun h => by
    unfold release at h
    split at h
    · injection h with h; exact h.symm
    · split at h <;> cases h
  have ere : ∀ {u : State} {id : Nat} {f : Fault}, eraseTimer b id u = .error f → f = .double := fun h => by
    unfold eraseTimer at h
    cases b <;> dsimp only at h
    · cases h
    · exact rele h
    · exact rele h
    · cases h
  cases h : step b raw s o with
  | ok t =>
    dsimp only
    cases o with
    | ret =>
      simp only [step] at h
      split at h
      · injection h with h; subst h; exact ⟨hw, hs⟩
      · rename_i id fs hst
        rw [hst] at hs
        obtain ⟨_, _, a3, _, a5⟩ := trig_same h
        refine ⟨a3.trans hw, ?_⟩
        simp at hs
        rcases a5 with a5 | a5 | a5 <;> rw [a5] <;> simp [hs]
      · rename_i id fs hst
        rw [hst] at hs
        split at h
        · cases h
        · obtain ⟨_, _, a3, _, a5⟩ := cancel_same h
          exact ⟨a3.trans hw, by rw [a5]; simp at hs; exact hs⟩
      · rename_i f fs hst
        rw [hst] at hs
        obtain ⟨_, _, a3, _, a5⟩ := proc_same h
        exact ⟨a3.trans hw, by rw [a5]; simp at hs; exact hs.2⟩
    | drop =>
      simp only [step] at h
      split at h
      · injection h with h; subst h; exact ⟨hw, hs⟩
      · obtain ⟨a, b⟩ := rel h; rw [a, b]; exact ⟨hw, hs⟩
    | fire id =>
      simp only [step] at h
      split at h
      · injection h with h; subst h; exact ⟨hw, hs⟩
      · cases b <;> dsimp only at h
        case asio =>
          split at h
          · injection h with h; subst h; exact ⟨hw, hs⟩
          · split at h
            · cases h
            · split at h
              · injection h with h; subst h; exact ⟨hw, by simp⟩
              · obtain ⟨a, b⟩ := rel h; rw [a, b]; exact ⟨hw, hs⟩
        all_goals
          split at h
          · injection h with h; subst h; exact ⟨hw, hs⟩
          · split at h
            · cases h
            · injection h with h; subst h; exact ⟨hw, by simp⟩
    | complete id err =>
      simp only [step] at h
      split at h
      · split at h
        · cases h
        · split at h
          · obtain ⟨a, b⟩ := rel h; rw [a, b]; exact ⟨hw, hs⟩
          · injection h with h; subst h; exact ⟨hw, hs⟩
      · injection h with h; subst h; exact ⟨hw, hs⟩
    | start id =>
      simp only [step] at h
      split at h <;> injection h with h <;> subst h
      · exact ⟨hw, hs⟩
      · cases b <;> exact ⟨hw, hs⟩
    | post =>
      simp only [step] at h
      split at h <;> injection h with h <;> subst h
      · exact ⟨hw, hs⟩
      · cases b <;> simp only [post]
        · exact ⟨hw, hs⟩
        · split <;> exact ⟨hw, hs⟩
        · exact ⟨hw, hs⟩
        · exact ⟨hw, hs⟩
    | async =>
      simp only [step, hw] at h
      simp at h
      subst h; exact ⟨hw, hs⟩
    | _ =>
      simp only [step] at h
      split at h
      · injection h with h; subst h; exact ⟨hw, hs⟩
      · first
        | (injection h with h; subst h; exact ⟨hw, hs⟩)
        | (injection h with h; subst h; exact ⟨hw, by simpa using hs⟩)
        | (injection h with h; subst h; exact ⟨rfl, by simpa using hs⟩)
        | (split at h
           · cases h
           · injection h with h; subst h; exact ⟨hw, by simp⟩)
  | error f =>
    dsimp only
    cases o with
    | ret =>
      simp only [step] at h
      split at h
      · cases h
      · unfold trigEnd at h
        split at h
        · injection h with h; simp [← h]
        · split at h
          · rename_i e; injection h with h; rw [← h, ere e]; simp
          · cases b <;> dsimp only at h
            · cases h
            · split at h
              · injection h with h; simp [← h]
              · rw [rele h]; simp
            · split at h
              · injection h with h; simp [← h]
              · cases h
            · cases h
      · split at h
        · injection h with h; simp [← h]
        · unfold cancelEnd at h
          split at h
          · rename_i e; injection h with h; rw [← h, ere e]; simp
          · cases b <;> dsimp only at h
            · rw [rele h]; simp
            · rw [rele h]; simp
            · cases h
            · cases h
      · rename_i g fs hst
        unfold procEnd at h
        cases g <;> dsimp only at h
        case async => rw [hst] at hs; simp at hs
        all_goals first
          | (cases h; done)
          | (split at h
             · injection h with h; simp [← h]
             · first
               | (rw [rele h]; simp; done)
               | cases h)
    | drop =>
      simp only [step] at h
      split at h
      · cases h
      · rw [rele h]; simp
    | fire id =>
      simp only [step] at h
      split at h
      · cases h
      · cases b <;> dsimp only at h
        case asio =>
          split at h
          · cases h
          · split at h
            · injection h with h; simp [← h]
            · split at h
              · cases h
              · rw [rele h]; simp
        all_goals
          split at h
          · cases h
          · split at h
            · injection h with h; simp [← h]
            · cases h
    | complete id err =>
      simp only [step] at h
      split at h
      · split at h
        · injection h with h; simp [← h]
        · split at h
          · rw [rele h]; simp
          · cases h
      · cases h
    | async =>
      simp only [step, hw] at h
      simp at h
    | _ =>
      simp only [step] at h
      split at h
      · cases h
      · first
        | (cases h; done)
        | (split at h
           · injection h with h; simp [← h]
           · cases h)

theorem stopped_run {b : Backend} : ∀ (os : List (Op × Bool)) {s : State}, s.watching = false → .proc .async ∉ s.stack →
    run b s os ≠ .error .async ∧ ∀ t, run b s os = .ok t → t.watching = false ∧ .proc .async ∉ t.stack
  | [], s, hw, hs => ⟨by simp [run], fun t h => by injection h with h; subst h; exact ⟨hw, hs⟩⟩
  | (o, raw) :: os, s, hw, hs => by
    have := stopped_step (b := b) (raw := raw) o hw hs
    simp only [run]
    cases h : step b raw s o with
    | error f => rw [h] at this; exact ⟨fun e => by injection e with e; exact this e, by simp⟩
    | ok u => rw [h] at this; exact stopped_run os this.1 this.2

/-- **C68, the stopped watcher.** After the shutdown has finished, provided that the watcher of libev is not just being called, the loop never
calls into the supervisor through it again: whatever happens, there is no use of the destroyed supervisor from there. -/
theorem C68_stopped_watcher {b : Backend} {s : State} (hd : s.dead = false) (hs : .proc .async ∉ s.stack) (raw : Bool) (os : List (Op × Bool)) :
    run b s ((.finish, raw) :: os) ≠ .error .async ∧ ∀ t, run b s ((.finish, raw) :: os) = .ok t → .proc .async ∉ t.stack := by
  have e : run b s ((.finish, raw) :: os) = run b { s with watching := false } os := by simp [run, step, hd]
  rw [e]
  have := stopped_run (b := b) os (s := { s with watching := false }) rfl hs
  exact ⟨this.1, fun t h => (this.2 t h).2⟩

/-- a timer expires, is called and removed; then the supervisor is shut down while a signal to the watcher is pending, and destroyed -/
example : fine .ev (quiet [.start 0, .fire 0]) (fun s => decide (s.stack = [.trig 0] ∧ s.timers = [0])) = true := by decide
example : fine .ev (quiet [.start 0]) (fun s => decide (s.stack = [] ∧ 0 ∈ s.timers)) = true := by decide
example : fine .ev (quiet [.post, .finish, .drop, .async]) (fun s => decide (s.dead = true ∧ s.stack = [])) = true := by decide

end Verif.SupRefs
