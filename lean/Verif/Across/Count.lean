import Verif.Across.Order
/-!
# Every request is pending, taken back, or has one response, under way or arrived
-/

namespace Verif.Across

/-- how many responses to the request `n` of `s` are in a queue -/
def cq (s n : Nat) : List Msg → Nat
  | [] => 0
  | ⟨.response s' n' _ _, _, _⟩ :: l => (if s' = s ∧ n' = n then 1 else 0) + cq s n l
  | _ :: l => cq s n l

def one (s n : Nat) (m : Msg) : Nat :=
  match m.body with
  | .response s' n' _ _ => if s' = s ∧ n' = n then 1 else 0
  | _ => 0

theorem cq_cons (s n : Nat) (m : Msg) (l : List Msg) : cq s n (m :: l) = one s n m + cq s n l := by
  obtain ⟨b, x, y⟩ := m
  cases b <;> simp [cq, one]

theorem cq_append (s n : Nat) (l r : List Msg) : cq s n (l ++ r) = cq s n l + cq s n r := by
  induction l with
  | nil => simp [cq]
  | cons m l ih => rw [List.cons_append, cq_cons, cq_cons, ih]; omega

theorem responses_got (s n : Nat) (m : Msg) (l : List Ev) : responses s n (.got m :: l) = one s n m + responses s n l := by
  obtain ⟨b, x, y⟩ := m
  cases b <;> simp [responses, one]

theorem cq_pos {s n : Nat} {l : List Msg} (h : cq s n l ≠ 0) : ∃ m ∈ l, ∃ o p, m.body = .response s n o p := by
  induction l with
  | nil => exact absurd rfl h
  | cons m l ih =>
    rw [cq_cons] at h
    by_cases h1 : one s n m = 0
    · obtain ⟨m', hm, r⟩ := ih (by omega)
      exact ⟨m', List.mem_cons_of_mem _ hm, r⟩
    · refine ⟨m, List.mem_cons_self, ?_⟩
      simp only [one] at h1
      split at h1
      · rename_i s' n' o p hb
        split at h1
        · rename_i hc; obtain ⟨rfl, rfl⟩ := hc; exact ⟨o, p, hb⟩
        · exact absurd rfl h1
      · exact absurd rfl h1

theorem one_pos {s n : Nat} {m : Msg} (h : one s n m ≠ 0) : one s n m = 1 ∧ ∃ o p, m.body = .response s n o p := by
  simp only [one] at h ⊢
  split at h
  · rename_i s' n' o p hb
    split at h
    · rename_i hc; obtain ⟨rfl, rfl⟩ := hc; exact ⟨by simp [hb], o, p, hb⟩
    · exact absurd rfl h
  · exact absurd rfl h

/-- events of the log that count: a response was made, the request was taken back -/
def isResolved (s n : Nat) : Ev → Bool
  | .resolved s' n' _ => decide (s' = s ∧ n' = n)
  | _ => false

def isStopped (s n : Nat) : Ev → Bool
  | .stopped _ s' n' => decide (s' = s ∧ n' = n)
  | _ => false

/-- responses that are somewhere between `s` and `o`, or were seen -/
def way (c : Cfg) (σ : State) (s n o : Nat) : Nat :=
  cq s n (σ.queue (c.loc s)) + (if c.loc o = c.loc s then 0 else cq s n (σ.queue (c.loc o)) + cq s n (σ.inbound (c.loc o)))

def waiting (σ : State) (s n : Nat) : Nat := if (AMap.find (σ.pend s) n).isSome then 1 else 0

/-- what a message says is so -/
def Honest (l : List Ev) (m : Msg) : Prop :=
  match m.body with
  | .reply s n x => ∃ b, m.src = some b ∧ .replied b m.seq s n x ∈ l ∧ ∃ a o, Ev.made s n a o ∈ l
  | .response s n o p => (∃ a, .made s n a o ∈ l) ∧ .resolved s n p ∈ l ∧ ∀ x, p = some x → ∃ b, m.src = some b ∧ .replied b m.seq s n x ∈ l
  | _ => True

theorem Honest.mono {l l' : List Ev} {m : Msg} (h : Honest l m) (hs : ∀ e ∈ l, e ∈ l') : Honest l' m := by
  obtain ⟨b, sr, sq⟩ := m
  cases b with
  | reply s n x =>
    obtain ⟨b, h1, h2, a, o, h3⟩ := h
    exact ⟨b, h1, hs _ h2, a, o, hs _ h3⟩
  | response s n o p =>
    obtain ⟨⟨a, h1⟩, h2, h3⟩ := h
    exact ⟨⟨a, hs _ h1⟩, hs _ h2, fun x hx => (h3 x hx).imp fun b hb => ⟨hb.1, hs _ hb.2⟩⟩
  | _ => trivial

structure CInv (c : Cfg) (σ : State) : Prop where
  que : ∀ L m, m ∈ σ.queue L → Honest σ.log m ∧ ∀ s n o p, m.body = .response s n o p → L = c.loc s ∨ L = c.loc o
  inb : ∀ L m, m ∈ σ.inbound L → Honest σ.log m ∧ ∀ s n o p, m.body = .response s n o p → L = c.loc o ∧ c.loc o ≠ c.loc s
  got : ∀ m, .got m ∈ σ.log → Honest σ.log m
  pend : ∀ s n a o, AMap.find (σ.pend s) n = some (a, o) → .made s n a o ∈ σ.log
  low : ∀ s n a o, .made s n a o ∈ σ.log → 0 < n ∧ n ≤ σ.last (c.loc s)
  uniq : ∀ s n a o a' o', .made s n a o ∈ σ.log → .made s n a' o' ∈ σ.log → a' = a ∧ o' = o
  count : ∀ s n a o, .made s n a o ∈ σ.log → way c σ s n o + responses s n σ.log = σ.log.countP (isResolved s n) ∧
    σ.log.countP (isResolved s n) + σ.log.countP (isStopped s n) + waiting σ s n = 1
  stops : ∀ s n a o b, .made s n a o ∈ σ.log → .stopped b s n ∈ σ.log → b = a
  only : ∀ s n p, .resolved s n p ∈ σ.log → ∃ a o, .made s n a o ∈ σ.log
  only' : ∀ s n b, .stopped b s n ∈ σ.log → ∃ a o, .made s n a o ∈ σ.log

theorem CInv.init (c : Cfg) : CInv c .init := by
  refine ⟨?_, ?_, ?_, ?_, ?_, ?_, ?_, ?_, ?_, ?_⟩ <;> (intros; rename_i h; first | cases h | (rename_i h; cases h) | (rename_i h _; cases h))

theorem one_zero {s n : Nat} {m : Msg} (h : ∀ o p, m.body ≠ .response s n o p) : one s n m = 0 := by
  by_cases h1 : one s n m = 0
  · exact h1
  · obtain ⟨_, o, p, hb⟩ := one_pos h1; exact absurd hb (h o p)

theorem push_cinv {c : Cfg} {σ : State} (i : CInv c σ) (a : Nat) (m : Body) (hm : ∀ s n o p, m ≠ .response s n o p)
    (ht : Honest σ.log ⟨m, some a, σ.sent a⟩) : CInv c (push c a m σ) := by
  have hq : ∀ s n K, cq s n ((push c a m σ).queue K) = cq s n (σ.queue K) := by
    intro s n K
    simp only [push, upd]
    split
    · rename_i hK; subst hK
      rw [cq_append, cq_cons, one_zero (m := ⟨m, some a, σ.sent a⟩) (fun o p => hm s n o p)]; simp [cq]
    · rfl
  refine { i with que := ?_, count := ?_ }
  · intro L m' h
    simp only [push, upd] at h
    split at h
    · rename_i hK; subst hK
      rw [List.mem_append] at h
      rcases h with h | h
      · exact i.que _ m' h
      · simp at h; subst h
        exact ⟨ht, fun s n o p hb => absurd hb (hm s n o p)⟩
    · exact i.que L m' h
  · intro s n a' o h
    have := i.count s n a' o h
    simp only [way, hq]
    exact this

/-- nothing about the request `n` of `s` is known before it is made -/
theorem fresh {c : Cfg} {σ : State} (i : CInv c σ) {s n : Nat} (h : ∀ a o, .made s n a o ∉ σ.log) :
    (∀ L, cq s n (σ.queue L) = 0) ∧ (∀ L, cq s n (σ.inbound L) = 0) ∧ responses s n σ.log = 0 ∧
    σ.log.countP (isResolved s n) = 0 ∧ σ.log.countP (isStopped s n) = 0 := by
  have hh : ∀ m o p, m.body = .response s n o p → Honest σ.log m → False := by
    intro m o p hb hm
    simp only [Honest, hb] at hm
    obtain ⟨⟨a, h1⟩, _⟩ := hm
    exact h a o h1
  refine ⟨?_, ?_, ?_, ?_, ?_⟩
  · intro L
    by_cases hz : cq s n (σ.queue L) = 0
    · exact hz
    · obtain ⟨m, hm, o, p, hb⟩ := cq_pos hz; exact (hh m o p hb (i.que L m hm).1).elim
  · intro L
    by_cases hz : cq s n (σ.inbound L) = 0
    · exact hz
    · obtain ⟨m, hm, o, p, hb⟩ := cq_pos hz; exact (hh m o p hb (i.inb L m hm).1).elim
  · have hg : ∀ m, .got m ∈ σ.log → ∀ o p, m.body ≠ .response s n o p := fun m hm o p hb => hh m o p hb (i.got m hm)
    revert hg
    generalize σ.log = l
    intro hg
    induction l with
    | nil => rfl
    | cons e l ih =>
      have ih := ih (fun m hm => hg m (List.mem_cons_of_mem _ hm))
      cases e with
      | got m => rw [responses_got, ih, one_zero (hg m List.mem_cons_self)]
      | _ => simpa [responses] using ih
  · rw [List.countP_eq_zero]
    intro e he hr
    cases e <;> simp [isResolved] at hr
    obtain ⟨rfl, rfl⟩ := hr
    obtain ⟨a, o, hm⟩ := i.only _ _ _ he
    exact h a o hm
  · rw [List.countP_eq_zero]
    intro e he hr
    cases e <;> simp [isStopped] at hr
    obtain ⟨rfl, rfl⟩ := hr
    obtain ⟨a, o, hm⟩ := i.only' _ _ _ he
    exact h a o hm

theorem made_cinv {c : Cfg} {σ : State} (i : CInv c σ) (s a o : Nat) :
    CInv c { σ with last := upd σ.last (c.loc s) (σ.last (c.loc s) + 1)
                    pend := upd σ.pend s ((σ.last (c.loc s) + 1, (a, o)) :: σ.pend s)
                    log := .made s (σ.last (c.loc s) + 1) a o :: σ.log } := by
  have hsub : ∀ e ∈ σ.log, e ∈ Ev.made s (σ.last (c.loc s) + 1) a o :: σ.log := fun e he => List.mem_cons_of_mem _ he
  have hnew : ∀ a' o', .made s (σ.last (c.loc s) + 1) a' o' ∉ σ.log := by
    intro a' o' h
    have := (i.low _ _ _ _ h).2
    omega
  refine ⟨?_, ?_, ?_, ?_, ?_, ?_, ?_, ?_, ?_, ?_⟩
  · exact fun L m hm => ⟨(i.que L m hm).1.mono hsub, (i.que L m hm).2⟩
  · exact fun L m hm => ⟨(i.inb L m hm).1.mono hsub, (i.inb L m hm).2⟩
  · intro m hm; simp only [List.mem_cons] at hm
    rcases hm with hm | hm
    · cases hm
    · exact (i.got m hm).mono hsub
  · intro s' n' a' o' h
    simp only [upd] at h
    split at h
    · rename_i hs; subst hs
      rw [find_cons] at h
      split at h
      · rename_i hn; subst hn; cases h; exact List.mem_cons_self
      · exact hsub _ (i.pend _ _ _ _ h)
    · exact hsub _ (i.pend _ _ _ _ h)
  · intro s' n' a' o' h
    simp only [List.mem_cons] at h
    rcases h with h | h
    · cases h; simp [upd]
    · have := i.low _ _ _ _ h
      simp only [upd]
      split
      · rename_i hs; rw [hs] at this; omega
      · exact this
  · intro s' n' a' o' a2 o2 h h2
    simp only [List.mem_cons] at h h2
    rcases h with h | h <;> rcases h2 with h2 | h2
    · cases h; cases h2; exact ⟨rfl, rfl⟩
    · cases h; exact absurd h2 (hnew _ _)
    · cases h2; exact absurd h (hnew _ _)
    · exact i.uniq _ _ _ _ _ _ h h2
  · intro s' n' a' o' h
    simp only [List.mem_cons] at h
    rcases h with h | h
    · cases h
      obtain ⟨f1, f2, f3, f4, f5⟩ := fresh i hnew
      simp [way, waiting, upd, f1, f2, responses, f3, f4, f5, isResolved, isStopped, List.countP_cons, AMap.find]
    · have hk := i.count _ _ _ _ h
      have hne : ¬ (s' = s ∧ n' = σ.last (c.loc s) + 1) := by
        rintro ⟨rfl, rfl⟩; exact hnew _ _ h
      have hw : waiting { σ with last := upd σ.last (c.loc s) (σ.last (c.loc s) + 1)
                                 pend := upd σ.pend s ((σ.last (c.loc s) + 1, (a, o)) :: σ.pend s)
                                 log := .made s (σ.last (c.loc s) + 1) a o :: σ.log } s' n' = waiting σ s' n' := by
        simp only [waiting, upd]
        by_cases hs : s' = s
        · subst hs
          have : ¬ (σ.last (c.loc s') + 1 = n') := fun hn => hne ⟨rfl, hn.symm⟩
          simp [AMap.find, this]
        · simp [hs]
      rw [hw]
      simpa [way, responses, List.countP_cons, isResolved, isStopped] using hk
  · intro s' n' a' o' b h h2
    simp only [List.mem_cons] at h h2
    rcases h2 with h2 | h2
    · cases h2
    · rcases h with h | h
      · cases h
        obtain ⟨x, y, hm⟩ := i.only' _ _ _ h2
        exact absurd hm (hnew _ _)
      · exact i.stops _ _ _ _ _ h h2
  · intro s' n' p h
    simp only [List.mem_cons] at h
    rcases h with h | h
    · cases h
    · obtain ⟨x, y, hm⟩ := i.only _ _ _ h; exact ⟨x, y, hsub _ hm⟩
  · intro s' n' b h
    simp only [List.mem_cons] at h
    rcases h with h | h
    · cases h
    · obtain ⟨x, y, hm⟩ := i.only' _ _ _ h; exact ⟨x, y, hsub _ hm⟩

end Verif.Across
