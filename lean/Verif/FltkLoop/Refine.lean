import Verif.FltkLoop.Props
import Verif.Fltk.Props
/-!
# C69: the model with messages refines the one with counters (C19)
-/

namespace Verif.FltkLoop

variable {σ σ' : State}

/-- where `_callback` is -/
def Pc.drain : Pc → Fltk.Drain
  | .idle => .idle
  | .fetching n => .fetching n
  | .proc (some n) => .processed n
  | .proc none => .idle
  | .sub n => .processed n

/-- the state of the wake-up protocol -/
def abs (σ : State) : Fltk.State where
  counter := σ.counter
  ctx := fun k => if k = 0 then ⟨σ.inbound.length, σ.pushing, σ.wakes, σ.pc.drain, (outsiders σ.taken).length + (outsiders σ.queue).length⟩ else .init

theorem frun_append {s : Fltk.State} {a b : List Fltk.Label} : Fltk.run s (a ++ b) = (Fltk.run s a).bind (fun s' => Fltk.run s' b) := by
  induction a generalizing s with
  | nil => rfl
  | cons l a ih =>
    simp only [List.cons_append, Fltk.run]
    cases Fltk.step s l with
    | none => rfl
    | some s' => simp only [ih]

theorem fext {a b : Fltk.State} (h1 : a.counter = b.counter) (h2 : a.ctx 0 = b.ctx 0) (h3 : ∀ k, k ≠ 0 → a.ctx k = b.ctx k) : a = b := by
  obtain ⟨c, f⟩ := a
  obtain ⟨c', f'⟩ := b
  simp only at h1 h2 h3
  subst h1
  congr 1
  funext k
  by_cases hk : k = 0
  · subst hk; exact h2
  · exact h3 k hk

theorem sim {op : Op} (e : step σ op = some σ') : ∃ ls : List Fltk.Label, (∀ l ∈ ls, l.ctx = 0) ∧ Fltk.run (abs σ) ls = some (abs σ') := by
  obtain ⟨pc, inbound, pushing, counter, wakes, starts, downs, queue, taken, pushed⟩ := σ
  cases op <;> simp only [step] at e
  case push m =>
    injection e with e; subst e
    refine ⟨[.push 0], by simp [Fltk.Label.ctx], ?_⟩
    simp only [Fltk.run, Fltk.step, Option.some.injEq]
    apply fext <;> simp +contextual [Fltk.State.set, abs, Fltk.push]
  case add =>
    split at e
    · cases e
    injection e with e; subst e
    rename_i hp
    refine ⟨[.add 0], by simp [Fltk.Label.ctx], ?_⟩
    have : ¬ ((abs ⟨pc, inbound, pushing, counter, wakes, starts, downs, queue, taken, pushed⟩).ctx 0).pushing = 0 := hp
    simp only [Fltk.run, Fltk.step, if_neg this, Option.some.injEq]
    apply fext <;> simp +contextual [Fltk.State.set, abs, Fltk.add]
  case wake =>
    split at e
    · rename_i hc
      injection e with e; subst e
      obtain ⟨rfl, hw⟩ := hc
      refine ⟨[.start 0], by simp [Fltk.Label.ctx], ?_⟩
      have : ¬ (((abs ⟨.idle, inbound, pushing, counter, wakes, starts, downs, queue, taken, pushed⟩).ctx 0).pending = 0 ∨
          ((abs ⟨.idle, inbound, pushing, counter, wakes, starts, downs, queue, taken, pushed⟩).ctx 0).drain ≠ .idle) := by
        simp [abs, Pc.drain, hw]
      simp only [Fltk.run, Fltk.step, if_neg this, Option.some.injEq]
      apply fext <;> simp +contextual [Fltk.State.set, abs, Pc.drain]
    · cases e
  case fetch =>
    split at e
    · rename_i n
      refine ⟨[.drain 0], by simp [Fltk.Label.ctx], ?_⟩
      split at e
      · rename_i m l
        injection e with e; subst e
        simp only [Fltk.run, Fltk.step, abs, Pc.drain, Fltk.drainStep, if_true, List.length_cons, Nat.add_eq_zero_iff, Nat.succ_ne_zero, and_false, if_false]
        rw [Option.some.injEq]
        apply fext <;> simp +contextual [Fltk.State.set, abs, Pc.drain, outsiders]
        omega
      · injection e with e; subst e
        simp only [Fltk.run, Fltk.step, abs, Pc.drain, Fltk.drainStep, if_true, List.length_nil]
        by_cases hn : n = 0
        · simp only [if_pos hn, Option.some.injEq]
          apply fext <;> simp +contextual [Fltk.State.set, abs, Pc.drain]
        · simp only [if_neg hn, Option.some.injEq]
          apply fext <;> simp +contextual [Fltk.State.set, abs, Pc.drain]
    · cases e
  case dispatch puts =>
    split at e
    · split at e
      · rename_i x q
        injection e with e; subst e
        refine ⟨[], by simp, ?_⟩
        simp only [Fltk.run, Option.some.injEq]
        have : (outsiders (x :: q)).length = (outsiders [x]).length + (outsiders q).length := by rw [outsiders_cons, List.length_append]
        apply fext <;> simp +contextual [abs, outsiders_append, outsiders_inside]
        omega
      · cases e
    · cases e
  case done =>
    split at e
    · rename_i r
      split at e
      · injection e with e; subst e
        refine ⟨[], by simp, ?_⟩
        simp only [Fltk.run, Option.some.injEq]
        cases r <;> (apply fext <;> simp +contextual [abs, Pc.drain])
      · cases e
    · cases e
  case sub =>
    split at e
    · rename_i n
      injection e with e; subst e
      refine ⟨[.drain 0], by simp [Fltk.Label.ctx], ?_⟩
      simp only [Fltk.run, Fltk.step, abs, Pc.drain, Fltk.drainStep, if_true]
      rw [Option.some.injEq]
      by_cases hn : counter = n
      · apply fext <;> simp +contextual [Fltk.State.set, abs, Pc.drain, hn]
      · apply fext <;> simp +contextual [Fltk.State.set, abs, Pc.drain, hn]
    · cases e
  case start => injection e with e; subst e; exact ⟨[], by simp, rfl⟩
  case down => injection e with e; subst e; exact ⟨[], by simp, rfl⟩
  case runStart =>
    split at e
    · rename_i hc
      injection e with e; subst e
      obtain ⟨rfl, hw⟩ := hc
      exact ⟨[], by simp, rfl⟩
    · cases e
  case runDown puts =>
    split at e
    · rename_i hc
      injection e with e; subst e
      obtain ⟨rfl, hw⟩ := hc
      refine ⟨[], by simp, ?_⟩
      simp only [Fltk.run, Option.some.injEq]
      apply fext <;> simp +contextual [abs, Pc.drain, outsiders_append, outsiders_inside]
    · cases e
  case timer puts =>
    split at e
    · injection e with e; subst e
      refine ⟨[], by simp, ?_⟩
      simp only [Fltk.run, Option.some.injEq]
      apply fext <;> simp +contextual [abs, outsiders_append, outsiders_timer]
    · cases e
  case process =>
    split at e
    · rename_i hc
      injection e with e; subst e
      subst hc
      exact ⟨[], by simp, rfl⟩
    · cases e

/-- **C69** Every execution of the model with messages is one of the wake-up protocol that C19 is about, with a single context: nothing that C19 excludes
happens here, and the counters of C19 count these messages. -/
theorem C69_refines_protocol {ops : List Op} (h : run .init ops = some σ) :
    ∃ ls : List Fltk.Label, (∀ l ∈ ls, l.ctx = 0) ∧ Fltk.run .init ls = some (abs σ) := by
  have h0 : abs .init = .init := by
    unfold abs State.init Fltk.State.init
    congr 1
    funext k
    simp [Fltk.Ctx.init, Pc.drain, outsiders]
  have key : ∀ (ops : List Op) (σ σ' : State), run σ ops = some σ' → ∃ ls : List Fltk.Label, (∀ l ∈ ls, l.ctx = 0) ∧ Fltk.run (abs σ) ls = some (abs σ') := by
    intro ops
    induction ops with
    | nil => intro σ σ' e; simp only [run, Option.some.injEq] at e; subst e; exact ⟨[], by simp, rfl⟩
    | cons op ops ih =>
      intro σ σ' e
      simp only [run] at e
      split at e
      · cases e
      rename_i τ e1
      obtain ⟨l1, a1, b1⟩ := sim e1
      obtain ⟨l2, a2, b2⟩ := ih τ σ' e
      refine ⟨l1 ++ l2, fun l hl => (List.mem_append.1 hl).elim (a1 l) (a2 l), ?_⟩
      rw [frun_append, b1]
      exact b2
  have := key ops _ _ h
  rw [h0] at this
  exact this

end Verif.FltkLoop
