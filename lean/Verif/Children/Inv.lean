import Verif.Children.Step
/-!
# Invariants of an address that hold in all executions
-/

namespace Verif.Children
open Verif

variable {c : Conf} {φ : Fl}

/-- one if the child is shutting down -/
def dying (k : Kid) : Nat := if k.st = .shuttingDown then 1 else 0

structure A (c : Conf) (v : View) : Prop where
  unb : v.k.born = false → v.k = Kid.no ∧ v.o = [] ∧ v.iA = false ∧ v.sA = false ∧ v.nS = 0 ∧ v.nI = 0
  unbs : v.k.born = false → ∀ m ∈ v.s, m = .spawn
  unbt : v.k.born = false → ∀ m ∈ v.t, m = .start
  actb : ∀ r, v.r = some r → r.act = true → v.k.born = true
  alive : v.k.born = true → (v.k.st ≠ .shutDown ∨ .shutRes ∈ v.s ∨ .shutRes ∈ v.o ∨ .unsub ∈ v.s) → ∃ r, v.r = some r ∧ r.act = true
  nn : ∀ r, v.r = some r → r.act = true → r.shut = .none → v.nS = 0
  spawn : .spawn ∈ v.s → ∀ r, v.r = some r → r.act = false
  timer : ∀ r, v.r = some r → r.info.timer = true → r.act = false
  tok : v.t.count .shutReq + dying v.k + v.s.count .shutRes + v.o.count .shutRes + v.s.count .unsub ≤ v.nS
  ns1 : v.nS ≤ 1
  ns0 : v.nS = 0 → v.k.st.rank ≤ 4 ∧ v.sA = false
  st6 : v.k.st = .shutDown → .shutReq ∉ v.t
  end6 : .shutRes ∈ v.s ∨ .shutRes ∈ v.o ∨ .unsub ∈ v.s → v.k.st = .shutDown
  sa : .shutReq ∈ v.t ∨ v.k.st = .shuttingDown ∨ .shutRes ∈ v.s ∨ .shutRes ∈ v.o → v.sA = true
  outs : .create ∉ v.o ∧ .spawn ∉ v.o ∧ .initErr ∉ v.o ∧ .unsub ∉ v.o

theorem count0 {α : Type} [BEq α] [LawfulBEq α] {a : α} {l : List α} (h : l.count a = 0) : a ∉ l := List.count_eq_zero.1 h
theorem count1 {α : Type} [BEq α] [LawfulBEq α] {a : α} {l : List α} (h : a ∈ l) : 1 ≤ l.count a := List.count_pos_iff.2 h

set_option maxHeartbeats 2000000 in
theorem A.step {v w : View} (h : A c v) (st : VStep c φ v w) : A c w := by
  obtain ⟨h1, h2, h3, h4, h5, h6, h7, h8, h9, h10, h11, h12, h13, h14, h15⟩ := h
  have e1 := @count1 Dn _ _ .shutReq v.t
  have e2 := @count1 KM _ _ .shutRes v.s
  have e3 := @count1 KM _ _ .shutRes v.o
  have e4 := @count1 KM _ _ .unsub v.s
  have e5 : .create ∈ v.s → v.k.born = true := fun hm => by
    cases hb : v.k.born with
    | true => rfl
    | false => exact absurd (h2 hb _ hm) (by simp)
  cases st <;> constructor <;> (try (first | exact h1 | exact h2 | exact h3 | exact h4 | exact h5 | exact h6 | exact h7 | exact h8 | exact h9 | exact h10 | exact h11 | exact h12 | exact h13 | exact h14 | exact h15)) <;>
    (try simp only [Rem, Rec.unused] at *) <;>
    grind [AState.rank, Kid.new, Kid.no, Blank, dying]

/-- init requests, answers and start messages -/
structure B (c : Conf) (v : View) : Prop where
  ci : v.nI + v.s.count .create ≤ 1
  iai : v.iA = true → v.nI = 1
  op : v.k.st = .operational ∨ .start ∈ v.t → 1 ≤ v.nT
  sgl : v.sg ≤ 1 ∧ (v.st.rank ≤ 3 → v.sg = 0)
  sy : c.sync = true → v.nT ≤ v.sg
  us : c.sync = false → v.nT ≤ 1 ∧ (v.nT = 1 → v.iA = false ∧ v.nI = 1)
  ok3 : .initRes true ∈ v.s ∨ .initRes true ∈ v.o → 3 ≤ v.k.st.rank ∧ v.k.ans = true
  ini3 : ∀ r, v.r = some r → r.act = true → r.initialized = true → 3 ≤ v.k.st.rank ∧ v.k.ans = true
  us3 : c.sync = false → 1 ≤ v.nT → 3 ≤ v.k.st.rank ∧ v.k.ans = true
  st3 : v.k.st = .initialized ∨ v.k.st = .operational → v.k.ans = true
  rank : 2 ≤ v.k.st.rank
  unT : c.sync = false → v.k.born = false → v.nT = 0

set_option maxHeartbeats 2000000 in
theorem B.step {v w : View} (h0 : A c v) (h : B c v) (st : VStep c φ v w) : B c w := by
  obtain ⟨h1, h2, h3, h4, h5, h6, h7, h8, h9, h10, h11, h12⟩ := h
  have a1 := h0.unb
  have a2 := h0.spawn
  have a3 := h0.outs
  have a4 : ∀ b, .initRes b ∈ v.s → v.k.born = true := fun b hm => by
    cases hb : v.k.born with
    | true => rfl
    | false => exact absurd (h0.unbs hb _ hm) (by simp)
  have a5 := h0.st6
  cases st <;> constructor <;> (try (first | exact h1 | exact h2 | exact h3 | exact h4 | exact h5 | exact h6 | exact h7 | exact h8 | exact h9 | exact h10 | exact h11 | exact h12)) <;>
    (try simp only [Rem, Rec.unused] at *) <;>
    grind [AState.rank, Kid.new, Kid.no, Blank]

end Verif.Children
