import Verif.Strands.Props
/-!
# C65: results of asynchronous operations are handed over once and in order, and messages do not wait for the next event
-/

namespace Verif.Strands

/-- the completed operations of the actors of strand `k`, oldest first -/
def completed (T : Topo) (k : Nat) : List Ev → List (Nat × Nat × Bool)
  | [] => []
  | .done c a ec :: l => completed T k l ++ (if T.strand (T.supOf a) = k then [(c, a, ec)] else [])
  | _ :: l => completed T k l

/-- the callbacks for results that have been called for actors of strand `k`, oldest first; the flag: the one for errors -/
def calls (T : Topo) (k : Nat) : List Ev → List (Nat × Nat × Bool)
  | [] => []
  | .called c a err :: l => calls T k l ++ (if T.strand (T.supOf a) = k then [(c, a, err)] else [])
  | _ :: l => calls T k l

/-- the results waiting in a strand -/
def waiting : List Task → List (Nat × Nat × Bool)
  | [] => []
  | .fwd c a err :: l => (c, a, err) :: waiting l
  | _ :: l => waiting l

theorem waiting_append : ∀ l l', waiting (l ++ l') = waiting l ++ waiting l' := by
  intro l l'
  induction l with
  | nil => rfl
  | cons t l ih => cases t <;> simp [waiting, ih]

/-- the invariant -/
def Ord (T : Topo) (σ : State) : Prop := ∀ k, completed T k σ.log = calls T k σ.log ++ waiting (σ.tasks k)

theorem Ord.congr {T : Topo} {σ σ' : State} (h : Ord T σ) (h1 : σ'.tasks = σ.tasks) (h2 : σ'.log = σ.log) : Ord T σ' := by
  intro k; rw [h1, h2]; exact h k

theorem Ord.defer {T : Topo} {σ : State} (h : Ord T σ) (k : Nat) (t : Task) (ht : waiting [t] = []) : Ord T (defer k t σ) := by
  intro k'
  have := h k'
  simp only [Strands.defer, upd]
  split
  · rename_i e; rw [waiting_append, ht, List.append_nil, ← e]; exact this
  · exact this

theorem Ord.enqueue {T : Topo} {σ σ' : State} (h : Ord T σ) {s : Nat} {m : Msg} (e : enqueue T s m σ = .ok σ') : Ord T σ' := by
  unfold Strands.enqueue at e
  split at e
  · injection e with e
    subst e
    exact (Ord.defer h (T.strand s) (.process s) rfl).congr rfl rfl
  · cases e

theorem Ord.deliverExternal {T : Topo} {m : Nat} : ∀ {l : List Nat} {σ σ' : State}, Ord T σ → deliverExternal T m l σ = .ok σ' → Ord T σ' := by
  intro l
  induction l with
  | nil => intro σ σ' h e; simp [Strands.deliverExternal] at e; subst e; exact h
  | cons a l ih =>
    intro σ σ' h e
    simp only [Strands.deliverExternal] at e
    split at e
    · cases e
    · rename_i σ₁ e₁; exact ih (h.enqueue e₁) e

theorem Ord.dispatch {T : Topo} {σ σ' : State} (h : Ord T σ) {k : Nat} {e : Exec} {subs : List Nat} {alive : Bool}
    (h' : dispatch T k e subs alive σ = .ok σ') : Ord T σ' := by
  unfold Strands.dispatch at h'
  simp only at h'
  split at h'
  · cases h'
  · rename_i msg q hq
    split at h'
    · split at h'
      · split at h'
        · cases h'
        · rename_i σ₁ e₁
          injection h' with h'
          subst h'
          exact (Ord.deliverExternal (h.congr (σ' := { σ with queue := upd σ.queue (T.leader e.sup) q, cur := upd σ.cur k _ }) rfl rfl) e₁).congr rfl rfl
      · injection h' with h'
        subst h'
        exact h.congr rfl rfl
    · exact (h.congr (σ' := { σ with queue := upd σ.queue (T.leader e.sup) q, cur := upd σ.cur k msg }) rfl rfl).enqueue h'

theorem finish_log {k t : Nat} {σ σ' : State} (e : finish k t σ = .ok σ') : σ'.tasks = σ.tasks ∧ σ'.log = σ.log := by
  unfold finish at e
  split at e
  · injection e with e; subst e; exact ⟨rfl, rfl⟩
  · cases e

theorem Ord.step {T : Topo} {σ σ' : State} (hi : Inv T σ) (h : Ord T σ) {l : Label} (e : step T σ l = .ok σ') : Ord T σ' := by
  cases l with
  | send k m =>
    obtain ⟨x, hx, -, e⟩ := onExec_ok e
    split at e
    · unfold put at e
      simp only at e
      split at e
      · injection e with e; subst e; exact h.congr rfl rfl
      · cases e
    · cases e
  | begin c a => injection e with e; subst e; exact h.congr rfl rfl
  | complete c a ec =>
    simp only [Strands.step] at e
    split at e
    · unfold forward at e
      simp only at e
      split at e
      · cases e
      · have key : ∀ b, b = ec → Ord T (Strands.defer (T.strand (T.supOf a)) (.fwd c a b)
            { { σ with io := σ.io.erase (c, a) } with log := Ev.done c a ec :: σ.log }) := by
          intro b hb k
          subst hb
          have := h k
          simp only [Strands.defer, upd, completed, calls]
          by_cases hk : k = T.strand (T.supOf a)
          · subst hk
            rw [if_pos rfl, if_pos rfl, waiting_append, this]
            simp [waiting]
          · rw [if_neg hk, if_neg (fun x => hk x.symm), List.append_nil]
            exact this
        split at e <;> injection e with e <;> subst e
        · rename_i hec; exact key true hec.symm
        · rename_i hec; exact key false (by simpa using hec)
    · cases e
  | expire a => injection e with e; subst e; exact Ord.defer h _ (.timer a) rfl
  | enqueue s m => exact h.enqueue e
  | take k t there =>
    simp only [Strands.step] at e
    split at e
    · rename_i task ts _ he hts
      injection e with e
      have hk : T.strand (task.sup T) = k := hi.tk k task (by rw [hts]; simp)
      subst e
      intro k'
      have hk' := h k'
      cases task with
      | fwd c a err =>
        simp only [start, completed, calls, upd]
        by_cases hkk : k' = k
        · subst hkk
          rw [if_pos rfl]
          have hk2 : T.strand (T.supOf a) = k' := hk
          rw [if_pos hk2, hk', hts]
          simp [waiting]
        · rw [if_neg hkk, if_neg (by show ¬ T.strand (T.supOf a) = k'; exact fun x => hkk (by rw [← x]; exact hk)), hk']
          simp
      | timer a =>
        have : Ord T { σ with tasks := upd σ.tasks k ts } := by
          intro k2
          simp only [upd]
          split
          · rename_i hk2; rw [hk2, h k, hts]; rfl
          · exact h k2
        simp only [start]
        split
        · exact this k'
        · exact this k'
      | process s =>
        have : Ord T { σ with tasks := upd σ.tasks k ts } := by
          intro k2
          simp only [upd]
          split
          · rename_i hk2; rw [hk2, h k, hts]; rfl
          · exact h k2
        exact this k'
    · cases e
  | back k =>
    obtain ⟨x, hx, -, e⟩ := onExec_ok e
    split at e
    · injection e with e; subst e; exact h.congr rfl rfl
    · cases e
  | pop k t =>
    obtain ⟨x, hx, -, e⟩ := onExec_ok e
    simp only at e
    split at e
    · split at e
      · injection e with e; subst e; exact h.congr rfl rfl
      · split at e
        · injection e with e; subst e; exact h
        · split at e
          · exact h.congr (finish_log e).1 (finish_log e).2
          · injection e with e; subst e; exact h.congr rfl rfl
    · cases e
  | dispatch k subs alive =>
    obtain ⟨x, hx, -, e⟩ := onExec_ok e
    split at e
    · exact h.dispatch e
    · cases e
  | call k =>
    obtain ⟨x, hx, -, e⟩ := onExec_ok e
    split at e
    · injection e with e; subst e
      intro k'
      simp only [completed, calls]
      exact h k'
    · injection e with e; subst e; exact h.congr rfl rfl
    · cases e
  | handled k =>
    obtain ⟨x, hx, -, e⟩ := onExec_ok e
    split at e
    · injection e with e; subst e; exact h.congr rfl rfl
    · cases e
  | «return» k t poll =>
    obtain ⟨x, hx, -, e⟩ := onExec_ok e
    split at e
    · split at e
      · injection e with e; subst e; exact h.congr rfl rfl
      · exact h.congr (finish_log e).1 (finish_log e).2
    · cases e
  | leave k t =>
    obtain ⟨x, hx, -, e⟩ := onExec_ok e
    split at e
    · split at e
      · exact h.congr (finish_log e).1 (finish_log e).2
      · injection e with e; subst e; exact h.congr rfl rfl
    · cases e
  | destroy s =>
    simp only [Strands.step] at e
    split at e
    · injection e with e; subst e; exact h.congr rfl rfl
    · cases e

theorem Ord.run {T : Topo} {ls : List Label} : ∀ {σ σ' : State}, Inv T σ → Ord T σ → Strands.run T σ ls = .ok σ' → Ord T σ' := by
  induction ls with
  | nil => intro σ σ' hi h e; simp [Strands.run] at e; exact e ▸ h
  | cons l ls ih =>
    intro σ σ' hi h e
    simp only [Strands.run] at e
    split at e
    · cases e
    · rename_i σ₁ e₁; exact ih (hi.step e₁) (h.step hi e₁) e

/-- **C65** each completed operation leads to one call, of the handler of errors or of the other one, as it has failed or not; the calls of a
locality are in the order of the completions, those not called yet wait in its strand. -/
theorem C65_calls {T : Topo} {ls : List Label} {σ : State} (h : run T State.init ls = .ok σ) (k : Nat) :
    completed T k σ.log = calls T k σ.log ++ waiting (σ.tasks k) :=
  Ord.run (Inv.init T) (by intro k; rfl) h k

/-- **C65** .. and the call takes place in the strand of the actor's supervisor, the thread then works for that supervisor. -/
theorem C65_called_in_strand {T : Topo} {ls : List Label} {σ : State} (h : run T State.init ls = .ok σ) {k a : Nat} {e : Exec}
    (he : σ.exec k = some e) (hp : e.pc = .callback a) : k = T.strand (T.supOf a) ∧ e.sup = T.supOf a := by
  have hi := (Inv.init T).run h
  have := hi.cb k e a he hp
  exact ⟨by rw [← this]; exact (hi.ex k e he).symm, this⟩

/-- in all states of the run strand `k` executes the same closure -/
def Stays (T : Topo) (k : Nat) : State → List Label → Prop
  | _, [] => True
  | σ, l :: ls => ∀ σ', step T σ l = .ok σ' → σ'.exec k ≠ none ∧ Stays T k σ' ls

theorem deliverExternal_exec {T : Topo} {m : Nat} : ∀ {l : List Nat} {σ σ' : State}, deliverExternal T m l σ = .ok σ' → σ'.exec = σ.exec := by
  intro l
  induction l with
  | nil => intro σ σ' e; simp [Strands.deliverExternal] at e; subst e; rfl
  | cons a l ih =>
    intro σ σ' e
    simp only [Strands.deliverExternal] at e
    split at e
    · cases e
    · rename_i σ₁ e₁
      refine (ih e).trans ?_
      unfold enqueue at e₁
      split at e₁
      · injection e₁ with e₁; subst e₁; rfl
      · cases e₁

theorem dispatch_exec {T : Topo} {σ σ' : State} {k : Nat} {e : Exec} (he : σ.exec k = some e) {subs : List Nat} {alive : Bool}
    (h' : dispatch T k e subs alive σ = .ok σ') (k' : Nat) :
    σ'.exec k' = σ.exec k' ∨ k' = k ∧ ∃ p, σ'.exec k' = some { e with pc := p } := by
  unfold dispatch at h'
  simp only at h'
  split at h'
  · cases h'
  · rename_i msg q hq
    split at h'
    · split at h'
      · split at h'
        · cases h'
        · rename_i σ₁ e₁
          injection h' with h'
          subst h'
          have := deliverExternal_exec e₁
          by_cases hk : k' = k
          · refine .inr ⟨hk, ?_⟩
            simp only [setPc, upd, if_pos hk]
            exact ⟨_, rfl⟩
          · refine .inl ?_
            simp only [setPc, upd, if_neg hk]; rw [this]
      · injection h' with h'
        subst h'
        by_cases hk : k' = k
        · refine .inr ⟨hk, ?_⟩
          simp only [setPc, upd, if_pos hk]
          exact ⟨_, rfl⟩
        · exact .inl (by simp only [setPc, upd, if_neg hk])
    · refine .inl ?_
      unfold enqueue at h'
      split at h'
      · injection h' with h'; subst h'; rfl
      · cases h'

theorem setPc_exec {σ : State} {k : Nat} {e : Exec} {p : Pc} (k' : Nat) :
    (setPc k e p σ).exec k' = σ.exec k' ∨ k' = k ∧ (setPc k e p σ).exec k' = some { e with pc := p } := by
  by_cases hk : k' = k
  · exact .inr ⟨hk, by simp only [setPc, upd, if_pos hk]⟩
  · exact .inl (by simp only [setPc, upd, if_neg hk])

/-- while a closure is executed its supervisor does not change; it ends only when the queue of its locality is empty -/
theorem exec_step {T : Topo} {σ σ' : State} {l : Label} (e : step T σ l = .ok σ') {k : Nat} {x : Exec} (hx : σ.exec k = some x) :
    (∃ x', σ'.exec k = some x' ∧ x'.sup = x.sup) ∨ (σ'.exec k = none ∧ σ.queue (T.leader x.sup) = [] ∧ σ'.queue (T.leader x.sup) = []) := by
  have same : ∀ {s : State}, s.exec = σ.exec → (∃ x', s.exec k = some x' ∧ x'.sup = x.sup) := by
    intro s hs; exact ⟨x, by rw [hs]; exact hx, rfl⟩
  have viaPc : ∀ {k' : Nat} {y z : Exec} {p : Pc}, σ.exec k' = some y → z.sup = y.sup → (∃ x', (setPc k' z p σ).exec k = some x' ∧ x'.sup = x.sup) := by
    intro k' y z p hy hz
    rcases setPc_exec (σ := σ) (k := k') (e := z) (p := p) k with h | ⟨hk, h⟩
    · exact ⟨x, by rw [h]; exact hx, rfl⟩
    · subst hk; rw [hx] at hy; cases hy
      exact ⟨_, h, hz⟩
  have viaFin : ∀ {k' t : Nat} {y : Exec}, σ.exec k' = some y → σ.queue (T.leader y.sup) = [] → finish k' t σ = .ok σ' →
      (∃ x', σ'.exec k = some x' ∧ x'.sup = x.sup) ∨ (σ'.exec k = none ∧ σ.queue (T.leader x.sup) = [] ∧ σ'.queue (T.leader x.sup) = []) := by
    intro k' t y hy hq e
    unfold finish at e
    split at e
    · injection e with e; subst e
      by_cases hk : k = k'
      · subst hk; rw [hx] at hy; cases hy
        exact .inr ⟨by simp [upd], hq, hq⟩
      · exact .inl ⟨x, by simp only [upd, if_neg hk]; exact hx, rfl⟩
    · cases e
  cases l with
  | send k' m =>
    obtain ⟨y, hy, -, e⟩ := onExec_ok e
    split at e
    · unfold put at e
      simp only at e
      split at e
      · injection e with e; subst e; exact .inl (same rfl)
      · cases e
    · cases e
  | begin c a => injection e with e; subst e; exact .inl (same rfl)
  | complete c a ec =>
    simp only [Strands.step] at e
    split at e
    · unfold forward at e
      simp only at e
      split at e
      · cases e
      · split at e <;> injection e with e <;> subst e <;> exact .inl (same rfl)
    · cases e
  | expire a => injection e with e; subst e; exact .inl (same rfl)
  | enqueue s m =>
    simp only [Strands.step, Strands.enqueue] at e
    split at e
    · injection e with e; subst e; exact .inl (same rfl)
    · cases e
  | take k' t there =>
    simp only [Strands.step] at e
    split at e
    · rename_i task ts _ he hts
      injection e with e
      subst e
      have hk : k ≠ k' := by intro hk; subst hk; rw [hx] at he; cases he
      refine .inl ⟨x, ?_, rfl⟩
      cases task with
      | fwd c a err => simp only [start, upd, if_neg hk]; exact hx
      | timer a =>
        simp only [start]
        split
        · simp only [upd, if_neg hk]; exact hx
        · exact hx
      | process s => simp only [start, upd, if_neg hk]; exact hx
    · cases e
  | back k' =>
    obtain ⟨y, hy, -, e⟩ := onExec_ok e
    split at e
    · injection e with e; subst e; exact .inl (viaPc hy rfl)
    · cases e
  | pop k' t =>
    obtain ⟨y, hy, -, e⟩ := onExec_ok e
    simp only at e
    split at e
    · split at e
      · injection e with e; subst e; exact .inl (same rfl)
      · split at e
        · injection e with e; subst e; exact .inl (same rfl)
        · split at e
          · rename_i hq; exact viaFin hy hq e
          · injection e with e; subst e; exact .inl (viaPc hy rfl)
    · cases e
  | dispatch k' subs alive =>
    obtain ⟨y, hy, -, e⟩ := onExec_ok e
    split at e
    · rcases dispatch_exec hy e k with h | ⟨hk, p, h⟩
      · exact .inl ⟨x, by rw [h]; exact hx, rfl⟩
      · subst hk; rw [hx] at hy; cases hy
        exact .inl ⟨_, h, rfl⟩
    · cases e
  | call k' =>
    obtain ⟨y, hy, -, e⟩ := onExec_ok e
    split at e
    · injection e with e; subst e; exact .inl (viaPc hy rfl)
    · injection e with e; subst e; exact .inl (viaPc hy rfl)
    · cases e
  | handled k' =>
    obtain ⟨y, hy, -, e⟩ := onExec_ok e
    split at e
    · injection e with e; subst e; exact .inl (viaPc hy rfl)
    · cases e
  | «return» k' t poll =>
    obtain ⟨y, hy, -, e⟩ := onExec_ok e
    split at e
    · rename_i hq
      split at e
      · injection e with e; subst e; exact .inl (viaPc hy rfl)
      · exact viaFin hy hq.2 e
    · cases e
  | leave k' t =>
    obtain ⟨y, hy, -, e⟩ := onExec_ok e
    split at e
    · split at e
      · rename_i hq; exact viaFin hy hq e
      · injection e with e; subst e; exact .inl (viaPc hy rfl)
    · cases e
  | destroy s =>
    simp only [Strands.step] at e
    split at e
    · injection e with e; subst e; exact .inl (same rfl)
    · cases e

/-- **C65** messages which a callback sends do not wait for the next event: when a callback (the result of an operation or a timer) of actor `a` is
executed in a strand, then as soon as this closure has ended the queue of the locality of `a` is empty. -/
theorem C65_processed {T : Topo} {ls ls' : List Label} {l : Label} {σ σ₁ σ₂ : State} {k a : Nat} {e : Exec}
    (h : run T State.init ls = .ok σ) (he : σ.exec k = some e) (hp : e.pc = .callback a)
    (h' : run T σ ls' = .ok σ₁) (hs : Stays T k σ ls') (hl : step T σ₁ l = .ok σ₂) (hend : σ₂.exec k = none) :
    σ₂.queue (T.leader (T.supOf a)) = [] := by
  have hc := (Inv.init T).run h |>.cb k e a he hp
  have key : ∀ (ls' : List Label) (σ : State) (e : Exec), σ.exec k = some e → run T σ ls' = .ok σ₁ → Stays T k σ ls' →
      ∃ e', σ₁.exec k = some e' ∧ e'.sup = e.sup := by
    intro ls'
    induction ls' with
    | nil => intro σ e he h' _; simp [run] at h'; subst h'; exact ⟨e, he, rfl⟩
    | cons m ms ih =>
      intro σ e he h' hs
      simp only [run] at h'
      split at h'
      · cases h'
      · rename_i σ3 e3
        have h3 := hs σ3 e3
        rcases exec_step e3 he with ⟨x', hx', hsup⟩ | ⟨hn, -⟩
        · obtain ⟨e', h4, h5⟩ := ih σ3 x' hx' h' h3.2
          exact ⟨e', h4, h5.trans hsup⟩
        · exact absurd hn h3.1
  obtain ⟨e', he', hsup⟩ := key ls' σ e he h' hs
  rcases exec_step hl he' with ⟨x', hx', -⟩ | ⟨-, -, hq⟩
  · rw [hend] at hx'; cases hx'
  · rw [hsup, hc] at hq; exact hq

end Verif.Strands
