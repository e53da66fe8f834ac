import Verif.Children.Live
/-!
# Messages find their record; start messages
-/

namespace Verif.Children
open Verif

variable {c : Conf} {φ : Fl}

/-- the last message about a child -/
def isEnd (m : KM) : Prop := m = .shutRes ∨ m = .unsub

/-- nothing is behind the last message -/
def endLast : List KM → Prop
  | [] => True
  | m :: l => (isEnd m → l = []) ∧ endLast l

theorem endLast_of_no {l : List KM} (h1 : .shutRes ∉ l) (h2 : .unsub ∉ l) : endLast l := by
  induction l with
  | nil => trivial
  | cons m l ih =>
    simp only [List.mem_cons, not_or] at h1 h2
    exact ⟨fun h => by rcases h with h | h <;> simp_all, ih h1.2 h2.2⟩

theorem endLast_snoc {l : List KM} {m : KM} (h1 : .shutRes ∉ l) (h2 : .unsub ∉ l) : endLast (l ++ [m]) := by
  induction l with
  | nil => exact ⟨fun _ => rfl, trivial⟩
  | cons x l ih =>
    simp only [List.mem_cons, not_or] at h1 h2
    exact ⟨fun h => by rcases h with h | h <;> simp_all, ih h1.2 h2.2⟩

/-- a child that is not shut down has a record -/
theorem A.held {v : View} (h : A c v) (hb : v.k.born = true) (hr : v.k.st.rank ≤ 5) : ∃ r, v.r = some r ∧ r.act = true :=
  h.alive hb (.inl (fun e => by rw [e] at hr; simp [AState.rank] at hr))

theorem endLast_end {m : KM} {l : List KM} (h : endLast (m :: l)) (he : isEnd m) : l = [] := h.1 he

/-- with the timers of the init requests restricted (`nt`) -/
structure D (v : View) : Prop where
  last : endLast (v.s ++ v.o)
  nact : (∀ r, v.r = some r → r.act = false) → ∀ m, m ∈ v.s ∨ m ∈ v.o → m = .spawn

set_option maxHeartbeats 2000000 in
theorem D.step {v w : View} (hn : φ.nt = true) (h0 : A c v) (hs : S v) (h : D v) (st : VStep c φ v w) : D w := by
  obtain ⟨h1, h2⟩ := h
  have a1 := h0.end6
  have a2 := h0.alive
  have a3 := h0.nn
  have a4 := h0.ns0
  have a5 := h0.tok
  have a6 := h0.ns1
  have a7 := h0.outs
  have a8 := h0.spawn
  have a9 := h0.timer
  have a10 := h0.actb
  have a11 := h0.unb
  have s1 := hs.sp1
  have e1 := @count1 KM _ _ .shutRes v.s
  have e2 := @count1 KM _ _ .shutRes v.o
  have e3 := @count1 KM _ _ .unsub v.s
  have a12 : v.k.born = true → v.k.st.rank ≤ 5 → ∃ r, v.r = some r ∧ r.act = true := h0.held
  have e6 : ∀ m s, v.s = m :: s → isEnd m → s = [] ∧ v.o = [] := by
    intro m s e hm
    rw [e] at h1
    have := endLast_end (m := m) (l := s ++ v.o) h1 hm
    simpa using this
  have e4 := @count1 KM _ _ .shutRes
  have e5 := @count1 KM _ _ .unsub
  constructor
  · show endLast (w.s ++ w.o)
    cases st <;> (try exact h1) <;> (try simp only [Rem, Rec.unused] at *) <;>
      grind [AState.rank, Kid.new, Kid.no, Blank, endLast, isEnd, endLast_of_no, endLast_snoc, dying]
  · cases st <;> (try exact h2) <;> (try simp only [Rem, Rec.unused] at *) <;>
      grind [AState.rank, Kid.new, Kid.no, Blank, endLast, isEnd, dying]

/-- the start messages, if no child joins between the initialization of the supervisor and its start -/
structure T (c : Conf) (v : View) : Prop where
  t1 : c.sync = true → v.st = .initialized → ∀ r, v.r = some r → r.act = true → 3 ≤ v.k.st.rank
  t2 : 1 ≤ v.nT → v.k.born = true → 3 ≤ v.k.st.rank
  t3 : v.k.st = .initialized → 1 ≤ v.nT → .start ∈ v.t
  t4 : c.sync = false → ∀ r, v.r = some r → r.act = true → r.initialized = true → v.nT = 1

set_option maxHeartbeats 2000000 in
theorem T.step {v w : View} (hn : c.sync = false ∨ (φ.nl = true ∧ φ.nm = true)) (h0 : A c v) (hb : B c v) (h : T c v) (st : VStep c φ v w) :
    T c w := by
  obtain ⟨h1, h2, h3, h4⟩ := h
  have a2 := h0.alive
  have a8 := h0.spawn
  have a10 := h0.actb
  have a11 := h0.unb
  have b1 := hb.ini3
  have b2 := hb.ok3
  have b3 := hb.rank
  have b4 := hb.us3
  have b5 := hb.us
  have b6 := hb.iai
  have a12 : v.k.born = true → v.k.st.rank ≤ 5 → ∃ r, v.r = some r ∧ r.act = true := h0.held
  have r3 : ¬ v.k.st.rank ≤ 2 → 3 ≤ v.k.st.rank := by omega
  cases st <;> constructor <;> (try (first | exact h1 | exact h2 | exact h3 | exact h4)) <;>
    (try simp only [Rem, Rec.unused, View.hi, View.may] at *) <;>
    grind [AState.rank, Kid.new, Kid.no, Blank]

/-- with `synchronize_start`: if no child is created after the start, every child has been sent the start message -/
structure O (c : Conf) (v : View) : Prop where
  o1 : c.sync = true → v.st = .operational → ∀ r, v.r = some r → r.act = true → 1 ≤ v.nT

set_option maxHeartbeats 2000000 in
theorem O.step {v w : View} (hn : φ.no = true) (h : O c v) (st : VStep c φ v w) : O c w := by
  obtain ⟨h1⟩ := h
  cases st <;> constructor <;> (try exact h1) <;>
    (try simp only [Rem, Rec.unused, View.hi, View.may] at *) <;>
    grind [AState.rank, Blank]

end Verif.Children
