import Verif.Children.Inv
/-!
# What every message and every request leads to
-/

namespace Verif.Children
open Verif

variable {c : Conf} {φ : Fl}

/-- spawn messages and records of spawners; the first message about a child -/
structure S (v : View) : Prop where
  sp1 : v.s.count .spawn ≤ 1
  spr : .spawn ∈ v.s → ∃ r, v.r = some r
  spt : ∀ r, v.r = some r → r.info.timer = true → .spawn ∉ v.s
  crea : .create ∈ v.s → v.s.head? = some .create
  crer : .create ∈ v.s → ∃ r, v.r = some r ∧ r.act = true

set_option maxHeartbeats 2000000 in
theorem S.step {v w : View} (h0 : A c v) (hb : B c v) (h : S v) (st : VStep c φ v w) : S w := by
  obtain ⟨h1, h2, h3, h4, h5⟩ := h
  have a2 := h0.spawn
  have a3 := h0.outs
  have a4 := h0.timer
  have e1 := @count1 KM _ _ .spawn v.s
  have e2 := @count0 KM _ _ .spawn v.s
  have e3 : v.s.count .create ≤ 1 := by have := hb.ci; omega
  cases st <;> constructor <;> (try (first | exact h1 | exact h2 | exact h3 | exact h4 | exact h5)) <;>
    (try simp only [Rem, Rec.unused] at *) <;>
    grind [AState.rank, Kid.new, Kid.no, Blank]

/-- progress. Nothing here needs a restriction; `cl` excuses everything, since messages get lost then -/
structure L (v : View) : Prop where
  asked : (if v.k.asked then 1 else 0) + v.t.count .initReq ≤ v.nI
  ans : v.k.ans = true → v.k.asked = true
  ireq : v.k.asked = true → v.k.ans = false → v.k.ireq = true
  ia : v.k.ireq = true → v.k.asked = true
  l1 : v.cl = false → ∀ r, v.r = some r → r.act = true → r.initialized = false →
    .create ∈ v.s ∨ v.iA = true ∨ .initErr ∈ v.s ∨ .trigger ∈ v.s ∨ .trigger ∈ v.o ∨ r.shut ≠ .none ∨ v.sf = true
  l2 : v.cl = false → v.iA = true → .initReq ∈ v.t ∨ (v.k.asked = true ∧ v.k.ans = false ∧ v.k.st = .initializing) ∨
    (∃ b, .initRes b ∈ v.s) ∨ (∃ b, .initRes b ∈ v.o) ∨ 5 ≤ v.k.st.rank
  l3 : v.cl = false → ∀ r, v.r = some r → r.act = true → r.shut ≠ .none →
    .shutReq ∈ v.t ∨ v.k.st = .shuttingDown ∨ .shutRes ∈ v.s ∨ .shutRes ∈ v.o ∨ .unsub ∈ v.s
  l4 : v.cl = false → v.k.want = true → v.k.st.rank ≤ 4 →
    .trigger ∈ v.s ∨ .trigger ∈ v.o ∨ ∃ r, v.r = some r ∧ r.act = true ∧ r.shut ≠ .none

set_option maxHeartbeats 4000000 in
theorem L.step {v w : View} (hv : VBase φ v) (h0 : A c v) (hb : B c v) (h : L v) (st : VStep c φ v w) : L w := by
  obtain ⟨h1, h2, h3, h8, h4, h5, h6, h7⟩ := h
  have a1 := h0.unb
  have a2 := h0.spawn
  have a3 := h0.outs
  have a4 := h0.nn
  have a5 := h0.ns0
  have a6 := h0.sa
  have a7 := h0.end6
  have a8 := h0.tok
  have a9 := h0.ns1
  have a10 := h0.st6
  have a11 := h0.alive
  have v1 := hv.fin
  have r5 : 5 ≤ v.k.st.rank → v.k.st = .shuttingDown ∨ v.k.st = .shutDown := by cases v.k.st <;> simp [AState.rank]
  have r2 : 2 ≤ v.k.st.rank → v.k.st = .initializing ∨ v.k.st = .initialized ∨ v.k.st = .operational ∨ 5 ≤ v.k.st.rank := by
    cases v.k.st <;> simp [AState.rank]
  have wb : v.k.want = true → v.k.born = true := by
    intro hw
    cases hb : v.k.born with
    | true => rfl
    | false => have := (a1 hb).1; rw [this] at hw; simp [Kid.no] at hw
  have b1 := hb.st3
  have b2 := hb.ci
  have b3 := hb.rank
  have e1 := @count1 Dn _ _ .shutReq v.t
  have e2 := @count1 KM _ _ .shutRes v.s
  have e3 := @count1 KM _ _ .shutRes v.o
  have e4 := @count1 KM _ _ .unsub v.s
  have e5 := @count1 Dn _ _ .initReq v.t
  have e6 := @count1 KM _ _ .create v.s
  cases st <;> constructor <;> (try (first | exact h1 | exact h2 | exact h3 | exact h4 | exact h5 | exact h6 | exact h7 | exact h8)) <;>
    (try simp only [Rem, Rec.unused] at *) <;>
    grind [AState.rank, Kid.new, Kid.no, Blank, dying]

end Verif.Children
