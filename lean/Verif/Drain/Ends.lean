import Verif.Drain.Calm

/-!
# C78: the destructors come to an end; cases and counterexamples
-/

namespace Verif.Drain

/-- how many messages of supervisor `s` are there -/
def mine (s : Nat) (q : List (Nat × Msg)) : Nat := q.countP fun e => decide (e.1 = s)

theorem mine_cut {l s : Nat} {e : Msg} {q : List (Nat × Msg)} (h : (l, e) ∈ q) : mine s q = mine s (q.erase (l, e)) + if l = s then 1 else 0 := by
  simp only [mine]
  rw [(List.perm_cons_erase h).countP_eq, List.countP_cons]
  simp only [decide_eq_true_eq]

theorem mine_put {l s : Nat} {e : Msg} {q : List (Nat × Msg)} : mine s (q ++ [(l, e)]) = mine s q + if l = s then 1 else 0 := by
  simp only [mine]
  rw [List.countP_append, List.countP_singleton]
  simp only [decide_eq_true_eq]

theorem first_of_pos {s : Nat} {q : List (Nat × Msg)} (h : mine s q ≠ 0) : ∃ e, first s q = some e := by
  cases hf : first s q with
  | some e => exact ⟨e, rfl⟩
  | none =>
    refine absurd ?_ h
    simp only [mine, List.countP_eq_zero, decide_eq_true_eq]
    exact first_none hf

theorem first_of_zero {s : Nat} {q : List (Nat × Msg)} (h : mine s q = 0) : first s q = none := by
  cases hf : first s q with
  | none => rfl
  | some e =>
    simp only [mine, List.countP_eq_zero, decide_eq_true_eq] at h
    exact absurd rfl (h _ (first_mem hf))

theorem pops {c : Cfg} : ∀ (n : Nat) (σ : State) (s : Nat), Ready c σ → σ.phase s = .dying → mine s σ.inb + mine s σ.queue = n →
    ∃ σ', run c σ (List.replicate n (.pop s)) = .ok σ' ∧ σ'.phase = σ.phase ∧ mine s σ'.inb = 0 ∧ mine s σ'.queue = 0 := by
  intro n
  induction n with
  | zero => intro σ s _ _ hn; exact ⟨σ, rfl, rfl, by omega, by omega⟩
  | succ n ih =>
    intro σ s h hd hn
    simp only [List.replicate_succ, run, step, if_pos hd]
    have hbox : ∀ τ : State, τ.phase = σ.phase → ∀ y, τ.phase (c.box y) = .alive → c.box y ≠ s := by
      intro τ ht y hy e
      rw [ht, e, hd] at hy
      simp at hy
    by_cases hz : mine s σ.inb = 0
    · rw [first_of_zero hz]
      obtain ⟨e, hf⟩ := first_of_pos (show mine s σ.queue ≠ 0 by omega)
      obtain ⟨σ', k1, k2, k3, k4, k5, k6⟩ := drop_ready (c := c) (e := e) (h.less (σ' := { σ with queue := σ.queue.erase (s, e) }) rfl rfl rfl (fun _ _ k => wrapped_queue k) (fun _ hx => hx))
        (fun x y e' hr => (h x y ⟨s, .inr (.inl (by rw [← e']; exact first_mem hf))⟩ hr).2)
      have hm := mine_cut (s := s) (first_mem hf)
      rw [if_pos rfl] at hm
      have hin : mine s σ'.inb = 0 := by
        rcases k6 with k6 | ⟨m, y, _, k6, k7⟩
        · rw [k6]; exact hz
        · rw [k6, mine_put, if_neg (hbox _ rfl y k7)]; exact hz
      simp only [hf, k1]
      obtain ⟨τ, g1, g2, g3⟩ := ih σ' s k2 (by rw [k3]; exact hd) (by rw [hin, k5]; simp only; omega)
      exact ⟨τ, g1, by rw [g2, k3], g3⟩
    · obtain ⟨e, hf⟩ := first_of_pos hz
      obtain ⟨σ', k1, k2, k3, k4, k5, k6⟩ := drop_ready (c := c) (e := e) (h.less (σ' := { σ with inb := σ.inb.erase (s, e) }) rfl rfl rfl (fun _ _ k => wrapped_inb k) (fun _ hx => hx))
        (fun x y e' hr => (h x y ⟨s, .inl (by rw [← e']; exact first_mem hf)⟩ hr).2)
      have hm := mine_cut (s := s) (first_mem hf)
      rw [if_pos rfl] at hm
      have hin : mine s σ'.inb = mine s (σ.inb.erase (s, e)) := by
        rcases k6 with k6 | ⟨m, y, _, k6, k7⟩
        · rw [k6]
        · rw [k6, mine_put, if_neg (hbox _ rfl y k7)]; rfl
      simp only [hf, k1]
      obtain ⟨τ, g1, g2, g3⟩ := ih σ' s k2 (by rw [k3]; exact hd) (by rw [hin, k5]; simp only; omega)
      exact ⟨τ, g1, by rw [g2, k3], g3⟩

theorem run_append {c : Cfg} : ∀ (a b : List Op) (σ σ1 : State), run c σ a = .ok σ1 → run c σ (a ++ b) = run c σ1 b := by
  intro a
  induction a with
  | nil => intro b σ σ1 h; simp only [run, Except.ok.injEq] at h; subst h; rfl
  | cons op a ih =>
    intro b σ σ1 h
    simp only [run] at h
    simp only [List.cons_append, run]
    split at h
    · simp at h
    · rename_i σ2 h2
      exact ih b σ2 σ1 h

/-- Under the same condition the destructor of a supervisor comes to its end after as many steps as there are messages in its two queues, and nothing is left there. -/
theorem C78_empties_partial (c : Cfg) (ops : List Op) (σ : State) (h : run c State.init ops = .ok σ) (ha : Along c (Calm c) State.init ops) (s : Nat) (hd : σ.phase s = .dying) :
    ∃ σ', run c σ (List.replicate ((σ.inb.countP fun e => decide (e.1 = s)) + (σ.queue.countP fun e => decide (e.1 = s))) (.pop s) ++ [.finish s]) = .ok σ' ∧
      σ'.phase s = .gone ∧ (∀ e ∈ σ'.inb, e.1 ≠ s) ∧ ∀ e ∈ σ'.queue, e.1 ≠ s := by
  rcases run_ready ops _ init_inv (init_ready c) ha with ⟨σ1, g, hr⟩ | g
  · rw [g] at h
    simp only [Except.ok.injEq] at h
    subst h
    obtain ⟨σ', k1, k2, k3, k4⟩ := pops _ σ1 s hr hd rfl
    refine ⟨{ σ' with phase := upd σ'.phase s .gone }, ?_, by simp [upd], first_none (first_of_zero k3), first_none (first_of_zero k4)⟩
    simp only [mine] at k1
    rw [run_append _ _ _ _ k1]
    simp only [run, step]
    rw [if_pos ⟨by rw [k2]; exact hd, first_of_zero k3, first_of_zero k4⟩]
  · rw [g] at h; simp at h

/-- what the loop in the destructor of a context still has to do: a wrapped call may come back as a message -/
def work (r : Nat) (q : List (Nat × Msg)) : Nat :=
  mine r q + q.countP fun e => decide (e.1 = r) && match e.2 with | .call _ _ => true | .plain _ => false

theorem drains {c : Cfg} : ∀ (n : Nat) (σ : State) (r : Nat), Ready c σ → σ.phase r = .alive → σ.closing r = true → work r σ.inb ≤ n →
    ∃ k σ', run c σ (List.replicate k (.drain r)) = .ok σ' ∧ mine r σ'.inb = 0 := by
  intro n
  induction n with
  | zero =>
    intro σ r _ _ _ hn
    refine ⟨0, σ, rfl, ?_⟩
    simp only [work] at hn; omega
  | succ n ih =>
    intro σ r h hd hc hn
    by_cases hz : mine r σ.inb = 0
    · exact ⟨0, σ, rfl, hz⟩
    · obtain ⟨e, hf⟩ := first_of_pos hz
      obtain ⟨σ', k1, k2, k3, k4, k5, k6⟩ := drop_ready (c := c) (e := e) (h.less (σ' := { σ with inb := σ.inb.erase (r, e) }) rfl rfl rfl (fun _ _ k => wrapped_inb k) (fun _ hx => hx))
        (fun x y e' hr => (h x y ⟨r, .inl (by rw [← e']; exact first_mem hf)⟩ hr).2)
      have hw : work r σ'.inb < work r σ.inb := by
        have hm := mine_cut (s := r) (first_mem hf)
        rw [if_pos rfl] at hm
        have hp := (List.perm_cons_erase (first_mem hf)).countP_eq (fun e : Nat × Msg => decide (e.1 = r) && match e.2 with | .call _ _ => true | .plain _ => false)
        rw [List.countP_cons] at hp
        rcases k6 with k6 | ⟨m, y, e1, k6, k7⟩
        · rw [k6]; simp only [work]; omega
        · subst e1
          simp only [decide_true, Bool.and_self, if_true] at hp
          rw [k6]
          simp only [work, mine_put, List.countP_append, List.countP_singleton, Bool.and_false, Bool.false_eq_true, if_false]
          split <;> omega
      obtain ⟨k, τ, g1, g2⟩ := ih σ' r k2 (by rw [k3]; exact hd) (by rw [k4]; exact hc) (by omega)
      refine ⟨k + 1, τ, ?_, g2⟩
      simp only [List.replicate_succ, run, step]
      rw [if_pos ⟨hc, hd⟩]
      simp only [hf, k1]
      exact g1

/-- And so does the loop in the destructor of a context. -/
theorem C78_context_empties_partial (c : Cfg) (ops : List Op) (σ : State) (h : run c State.init ops = .ok σ) (ha : Along c (Calm c) State.init ops) (r : Nat)
    (hd : σ.phase r = .alive) (hc : σ.closing r = true) :
    ∃ n σ', run c σ (List.replicate n (.drain r)) = .ok σ' ∧ ∀ e ∈ σ'.inb, e.1 ≠ r := by
  rcases run_ready ops _ init_inv (init_ready c) ha with ⟨σ1, g, hr⟩ | g
  · rw [g] at h
    simp only [Except.ok.injEq] at h
    subst h
    obtain ⟨k, σ', k1, k2⟩ := drains _ σ1 r hr hd hc (Nat.le_refl _)
    exact ⟨k, σ', k1, first_none (first_of_zero k2)⟩
  · rw [g] at h; simp at h

/-! ## counterexamples -/

def result (r : Except Err State) : Option Err := match r with | .error e => some e | .ok _ => none

/-- the thread backend: 0 is a root supervisor, 1 the root of another context, 2 a supervisor nested in 1 -/
def thread : Cfg := ⟨id, fun s => if s = 2 then 1 else s, true⟩

/-- libev: the same supervisors; messages for 2 go into the inbound queue of its locality leader 1 -/
def ev : Cfg := ⟨fun s => if s = 2 then 1 else s, fun s => if s = 2 then 1 else s, false⟩

/-- a message with a second destination is delivered to address of 0, where an actor of supervisor `s` is subscribed -/
def delivered (s : Nat) : List Op := [.send 0 true, .move 0, .take 0, .wrap 0 s, .done 0]

/-- A wrapped call that is still in the inbound queue of the supervisor when that is destroyed (with the thread backend this is where those for actors of nested supervisors are in
any case: nobody takes them, `C18_nested_never_taken_counterexample`): its destructor calls the pure virtual `enqueue` of the supervisor. -/
theorem C78_pure_virtual_counterexample : result (run thread State.init (delivered 2 ++ [.destroy 2, .pop 2])) = some .pureVirtual := by decide

/-- libev: the supervisor of the actor has been destroyed, the wrapped call waits in the inbound queue of the locality leader: its destructor uses the supervisor. Or
the leader is destroyed, while the nested supervisor is kept by somebody: the call is destroyed with `queue`, and the inbound queue, a later member, has
been destroyed before (`supervisor.h:274, 298`). -/
theorem C78_dangling_counterexample :
    result (run ev State.init (delivered 2 ++ [.destroy 2, .finish 2, .move 1, .take 1, .done 1])) = some .dangling ∧
    result (run ev State.init (delivered 2 ++ [.move 1, .destroy 1, .pop 1])) = some .dangling := by decide

/-- The thread backend: a wrapped call arrives after the loop has ended. The destructor of the context takes it from the inbound queue of the root supervisor, and
its destructor locks a mutex of the context that has been destroyed. -/
theorem C78_mutex_counterexample : result (run thread State.init (delivered 1 ++ [.close 1, .drain 1])) = some .mutex := by decide

/-! ## cases -/

def outcome (r : Except Err State) : Option (List Ev) := match r with | .error _ => none | .ok σ => some σ.log

/-- the call is processed before the supervisor is destroyed: the message goes on, and what is left is destroyed -/
def good : List Op := delivered 2 ++ [.move 1, .take 1, .done 1, .send 2 false, .move 1, .destroy 2, .finish 2, .destroy 1, .pop 1, .pop 1, .finish 1]

example : outcome (run ev State.init good) = some [.freed 0 false, .freed 1 false, .sent 1 false, .hop 0, .sent 0 true] := by decide

/-- a message with a second destination in a queue that is destroyed -/
example : outcome (run ev State.init [.send 2 true, .close 1, .drain 1]) = some [.freed 0 true, .sent 0 true] := by decide

/-- boost.asio: the call comes back as a message -/
example : outcome (run { ev with box := id } State.init (delivered 1 ++ [.close 1, .drain 1, .drain 1])) = some [.freed 0 false, .hop 0, .sent 0 true] := by decide

/-- a handler keeps the message: the turn does not send it on, and neither does its owner -/
example : outcome (run ev State.init [.send 0 true, .move 0, .take 0, .keep 0, .done 0, .forget 0]) = some [.freed 0 true, .sent 0 true] := by decide

theorem calm_decided {c : Cfg} {σ : State} {s : Nat} (h : ∀ m, σ.route m = false) : Calm c σ (.destroy s) := by
  intro m x _ k; rw [h m] at k; simp at k

/-- the condition of the theorems holds of a run in which a message goes on and supervisors are destroyed -/
example : Along ev (Calm ev) State.init (delivered 2 ++ [.move 1, .take 1, .done 1, .destroy 2]) := by
  refine ⟨trivial, trivial, trivial, trivial, trivial, trivial, trivial, trivial, calm_decided (fun m => ?_), trivial⟩
  match m with
  | 0 => rfl
  | m + 1 => rfl

end Verif.Drain
