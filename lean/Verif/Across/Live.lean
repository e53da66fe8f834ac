import Verif.Across.Props
/-!
# C82: messages in the queue of a locality get their turn
-/

namespace Verif.Across

/-- a reply may become a response, which is handled before the rest -/
def weight : List Msg → Nat
  | [] => 0
  | ⟨.reply _ _ _, _, _⟩ :: l => 2 + weight l
  | _ :: l => 1 + weight l

theorem weight_le (l : List Msg) : weight l ≤ 2 * l.length := by
  induction l with
  | nil => exact Nat.le_refl _
  | cons m l ih =>
    obtain ⟨b, x, y⟩ := m
    cases b <;> simp only [weight, List.length_cons] <;> omega

/-- others only append to the queue -/
theorem step_appends (c : Cfg) (σ : State) {op : Op} {L : Nat} (h : op ≠ .turn L) : ∃ q, (step c σ op).queue L = σ.queue L ++ q := by
  have hpush : ∀ b m (τ : State), ∃ q, (push c b m τ).queue L = τ.queue L ++ q := by
    intro b m τ
    simp only [push, upd]
    split
    · rename_i h; subst h; exact ⟨_, rfl⟩
    · exact ⟨[], by simp⟩
  cases op with
  | request a b o => simp only [step, request]; exact hpush _ _ _
  | send a b x => exact hpush _ _ _
  | reply b s n x =>
    simp only [step]
    split
    · exact hpush _ _ _
    · exact ⟨[], by simp⟩
  | turn K =>
    have hK : ¬ L = K := fun e => h (by rw [e])
    refine ⟨[], ?_⟩
    simp only [step, turn]
    split
    · simp
    · split
      · split
        · simp only [onReply]
          split
          · simp [upd, hK]
          · simp [upd, hK]
        · simp [upd, hK]
      · simp [upd, hK]
  | take K =>
    simp only [step, take, upd]
    split
    · rename_i h; subst h; exact ⟨_, rfl⟩
    · exact ⟨[], by simp⟩
  | expire s n =>
    simp only [step, expire]
    split
    · exact ⟨[], by simp⟩
    · simp only [upd]
      split
      · rename_i h; subst h; exact ⟨_, rfl⟩
      · exact ⟨[], by simp⟩
  | stop a => exact ⟨[], by simp [step, stop]⟩

/-- a turn takes the first message, or makes a response of it -/
theorem turn_advances (c : Cfg) {σ : State} {L : Nat} {m : Msg} {rest : List Msg} (hq : σ.queue L = m :: rest) :
    ∃ pre, (turn c L σ).queue L = pre ++ rest ∧ weight pre < weight [m] := by
  obtain ⟨b, x, y⟩ := m
  simp only [turn, hq]
  split
  · split
    · rename_i s n z hb
      subst hb
      simp only [onReply]
      split
      · exact ⟨[], by simp [upd], by simp [weight]⟩
      · rename_i a o hf
        exact ⟨[⟨.response s n o (some z), x, y⟩], by simp [upd, uplift_append], by simp [weight]⟩
    · refine ⟨[], by simp [upd], ?_⟩
      cases b <;> simp [weight]
  · refine ⟨[], ?_, ?_⟩
    · simp [upd]
    · cases b <;> simp [weight]

theorem weight_append (a b : List Msg) : weight (a ++ b) = weight a + weight b := by
  induction a with
  | nil => simp [weight]
  | cons m l ih =>
    obtain ⟨b, x, y⟩ := m
    cases b <;> simp only [weight, List.cons_append, ih] <;> omega

theorem weight_cons (m : Msg) (l : List Msg) : weight (m :: l) = weight [m] + weight l := weight_append [m] l

theorem reaches_head (c : Cfg) {L : Nat} {m : Msg} (ops : List Op) : ∀ {σ : State} {pre post : List Msg}, σ.queue L = pre ++ m :: post →
    weight pre < ops.count (.turn L) → ∃ o1 o2 post', ops = o1 ++ .turn L :: o2 ∧ (run c σ o1).queue L = m :: post' := by
  induction ops with
  | nil => intro σ pre post _ h; simp at h
  | cons op r ih =>
    intro σ pre post hq hc
    by_cases hop : op = .turn L
    · subst hop
      cases pre with
      | nil => exact ⟨[], r, post, rfl, hq⟩
      | cons m0 pre =>
        obtain ⟨p1, h1, h2⟩ := turn_advances c (σ := σ) (L := L) (m := m0) (rest := pre ++ m :: post) hq
        rw [weight_cons] at hc
        simp only [List.count_cons_self] at hc
        obtain ⟨o1, o2, post', e1, e2⟩ := ih (σ := turn c L σ) (pre := p1 ++ pre) (post := post) (by rw [h1, List.append_assoc]) (by rw [weight_append]; omega)
        exact ⟨.turn L :: o1, o2, post', by rw [e1]; rfl, e2⟩
    · obtain ⟨q, h1⟩ := step_appends c σ hop
      have hc' : r.count (.turn L) = (op :: r).count (.turn L) := by
        rw [List.count_cons_of_ne hop]
      obtain ⟨o1, o2, post', e1, e2⟩ := ih (σ := step c σ op) (pre := pre) (post := post ++ q) (by rw [h1, hq]; simp) (by omega)
      exact ⟨op :: o1, o2, post', by rw [e1]; rfl, e2⟩

theorem step_log (c : Cfg) (σ : State) (op : Op) {e : Ev} (h : e ∈ σ.log) : e ∈ (step c σ op).log := by
  cases op with
  | request a b o => simp [step, request, push, h]
  | send a b x => simpa [step, push] using h
  | reply b s n x => simp only [step]; split <;> simp [push, h]
  | turn L =>
    simp only [step, turn]
    split
    · exact h
    · split
      · split
        · simp only [onReply]
          split
          · exact h
          · simp [h]
        · simp [h]
      · exact h
  | take L => exact h
  | expire s n => simp only [step, expire]; split <;> simp [h]
  | stop a => simp [step, stop, h]

theorem run_log (c : Cfg) (σ : State) (ops : List Op) {e : Ev} (h : e ∈ σ.log) : e ∈ (run c σ ops).log := by
  induction ops generalizing σ with
  | nil => exact h
  | cons op r ih => exact ih _ (step_log c σ op h)

/-- **C82**. A message in the queue of its locality is seen after at most twice as many turns as there are messages before it, and one, whatever
happens in between. -/
theorem C82_seen (c : Cfg) (before ops : List Op) {L : Nat} {m : Msg} {pre post : List Msg} (hq : (run c .init before).queue L = pre ++ m :: post)
    (hto : c.loc m.to = L) (hr : ∀ s n x, m.body ≠ .reply s n x) (hc : 2 * pre.length < ops.count (.turn L)) :
    .got m ∈ (run c (run c .init before) ops).log := by
  obtain ⟨o1, o2, post', e1, e2⟩ := reaches_head c ops hq (Nat.lt_of_le_of_lt (weight_le pre) hc)
  subst e1
  have : run c (run c .init before) (o1 ++ .turn L :: o2) = run c (turn c L (run c (run c .init before) o1)) o2 := by
    simp [run, List.foldl_append, step]
  rw [this]
  refine run_log c _ o2 ?_
  generalize run c (run c .init before) o1 = σ at *
  simp only [turn, e2]
  rw [if_pos hto]
  exact List.mem_cons_self

/-- **C82**. A message for another locality is in the inbound queue there after at most that many turns. -/
theorem C82_sent_on (c : Cfg) (before ops : List Op) {L : Nat} {m : Msg} {pre post : List Msg} (hq : (run c .init before).queue L = pre ++ m :: post)
    (hto : c.loc m.to ≠ L) (hc : 2 * pre.length < ops.count (.turn L)) :
    ∃ o1 o2, ops = o1 ++ o2 ∧ m ∈ (run c (run c .init before) o1).inbound (c.loc m.to) := by
  obtain ⟨o1, o2, post', e1, e2⟩ := reaches_head c ops hq (Nat.lt_of_le_of_lt (weight_le pre) hc)
  refine ⟨o1 ++ [.turn L], o2, by rw [e1]; simp, ?_⟩
  have : run c (run c .init before) (o1 ++ [.turn L]) = turn c L (run c (run c .init before) o1) := by
    simp [run, List.foldl_append, step]
  rw [this]
  generalize run c (run c .init before) o1 = σ at *
  simp only [turn, e2]
  rw [if_neg hto]
  simp [upd]

/-- **C82**. What is in the inbound queue of a locality is in its queue after the next transfer. -/
theorem C82_taken (c : Cfg) (before : List Op) {L : Nat} {m : Msg} (h : m ∈ (run c .init before).inbound L) :
    m ∈ (run c .init (before ++ [.take L])).queue L := by
  have : run c .init (before ++ [.take L]) = take L (run c .init before) := by simp [run, List.foldl_append, step]
  rw [this]
  simp [take, upd, h]

/-- **C82**. The handler runs in the event loop of the one the message is for: of the one who is asked, of the one the response was asked for, of the one a
message was sent to. Nothing but the turn of this event loop makes it run. -/
theorem C82_at_home (c : Cfg) (before : List Op) (op : Op) {m : Msg} {l : List Ev}
    (h : (run c .init (before ++ [op])).log = .got m :: l) (hn : (run c .init before).log = l) :
    ∃ L, op = .turn L ∧ (∀ s n b, m.body = .request s n b → c.loc b = L) ∧ (∀ s n o p, m.body = .response s n o p → c.loc o = L) ∧
      (∀ b x, m.body = .other b x → c.loc b = L) ∧ ∀ s n x, m.body ≠ .reply s n x := by
  have hr : run c .init (before ++ [op]) = step c (run c .init before) op := by simp [run, List.foldl_append]
  rw [hr] at h
  generalize run c .init before = σ at *
  subst hn
  have hne : ∀ {e : Ev} {l : List Ev}, l = e :: l → False := fun {e l} h => by simpa using congrArg List.length h
  cases op with
  | request a b o => simp [step, request, push] at h
  | send a b x => exact absurd h (fun h => hne h)
  | reply b s n x =>
    simp only [step] at h
    split at h
    · simp [push] at h
    · exact (hne h).elim
  | turn L =>
    refine ⟨L, rfl, ?_⟩
    simp only [step, turn] at h
    split at h
    · exact (hne h).elim
    · rename_i m0 rest hq
      split at h
      · rename_i hto
        split at h
        · simp only [onReply] at h
          split at h
          · exact (hne h).elim
          · simp at h
        · rename_i hb
          obtain ⟨h1, _⟩ := List.cons.inj h
          cases h1
          refine ⟨?_, ?_, ?_, hb⟩ <;> intros <;> simp_all [Msg.to]
      · exact (hne h).elim
  | take L => exact absurd h (fun h => hne h)
  | expire s n =>
    simp only [step, expire] at h
    split at h
    · exact (hne h).elim
    · simp at h
  | stop a =>
    simp only [step, stop] at h
    cases hf : (σ.pend (c.supOf a)).filter (fun p => decide (p.2.1 = a)) with
    | nil => rw [hf] at h; exact (hne h).elim
    | cons p r => rw [hf] at h; simp at h

end Verif.Across
