import Verif.Across.Live
/-!
# C82: executions that do not end
-/

namespace Verif.Across

theorem upto_succ (c : Cfg) (f : Nat → Op) (k : Nat) : run c .init (upto f (k + 1)) = step c (run c .init (upto f k)) (f k) := by
  simp [upto, List.range_succ, run, List.foldl_append]

/-- the queues of localities without actors are empty -/
def Homes (c : Cfg) (σ : State) : Prop := ∀ L m, m ∈ σ.queue L ∨ m ∈ σ.inbound L → ∃ a, c.loc a = L

theorem step_homes {c : Cfg} {σ : State} (i : Homes c σ) (op : Op) : Homes c (step c σ op) := by
  have hpush : ∀ b m (τ : State), Homes c τ → Homes c (push c b m τ) := by
    intro b m τ h L m' hm
    simp only [push, upd] at hm
    split at hm
    · rename_i hL; exact ⟨b, hL.symm⟩
    · exact h L m' hm
  cases op with
  | request a b o => exact hpush _ _ _ i
  | send a b x => exact hpush _ _ _ i
  | reply b s n x =>
    simp only [step]
    split
    · exact hpush _ _ _ i
    · exact i
  | turn K =>
    simp only [step, turn]
    split
    · exact i
    · rename_i m0 rest hq
      have hK : ∃ a, c.loc a = K := i K m0 (.inl (by rw [hq]; exact List.mem_cons_self))
      intro L m hm
      by_cases hL : L = K
      · subst hL; exact hK
      · by_cases hL' : L = c.loc m0.to
        · exact ⟨_, hL'.symm⟩
        · refine i L m ?_
          split at hm
          · split at hm
            · simp only [onReply] at hm
              split at hm <;> simpa [upd, hL] using hm
            · simpa [upd, hL] using hm
          · simpa [upd, hL, hL'] using hm
  | take K =>
    intro L m hm
    simp only [step, take, upd] at hm
    by_cases hL : L = K
    · subst hL
      simp only [if_true, List.mem_append] at hm
      rcases hm with hm | hm
      · exact i L m hm
      · cases hm
    · simp only [hL, if_false] at hm; exact i L m hm
  | expire s n =>
    simp only [step, expire]
    split
    · exact i
    · intro L m hm
      simp only [upd] at hm
      split at hm
      · rename_i hL; exact ⟨s, hL.symm⟩
      · exact i L m hm
  | stop a => exact i

theorem run_homes {c : Cfg} (f : Nat → Op) (k : Nat) : Homes c (run c .init (upto f k)) := by
  induction k with
  | zero => intro L m hm; simp [upto, run, State.init] at hm
  | succ k ih => rw [upto_succ]; exact step_homes ih _

/-- a message in a queue gets its turn -/
theorem fair_head (c : Cfg) (f : Nat → Op) (hf : Fair c f) {L : Nat} {m : Msg} (w : Nat) : ∀ (k : Nat) (pre post : List Msg), weight pre ≤ w →
    (run c .init (upto f k)).queue L = pre ++ m :: post → ∃ j rest, k ≤ j ∧ f j = .turn L ∧ (run c .init (upto f j)).queue L = m :: rest := by
  induction w using Nat.strongRecOn with
  | ind w ih =>
    intro k pre post hw hq
    obtain ⟨x, hx⟩ := run_homes f k L m (.inl (by rw [hq]; simp))
    obtain ⟨d, hd⟩ := (hf x k).1
    rw [hx] at hd
    induction d generalizing k post with
    | zero =>
      have hd : f k = .turn L := hd
      cases pre with
      | nil => exact ⟨k, post, Nat.le_refl _, hd, hq⟩
      | cons m0 pre =>
        obtain ⟨p1, h1, h2⟩ := turn_advances c (L := L) (m := m0) (rest := pre ++ m :: post) hq
        rw [weight_cons] at hw
        have hlt : weight (p1 ++ pre) < w := by rw [weight_append]; omega
        obtain ⟨j, rest, hj, e1, e2⟩ := ih _ hlt (k + 1) (p1 ++ pre) post (Nat.le_refl _) (by rw [upto_succ, hd]; simp only [step]; rw [h1, List.append_assoc])
        exact ⟨j, rest, by omega, e1, e2⟩
    | succ d ihd =>
      by_cases hop : f k = .turn L
      · cases pre with
        | nil => exact ⟨k, post, Nat.le_refl _, hop, hq⟩
        | cons m0 pre =>
          obtain ⟨p1, h1, h2⟩ := turn_advances c (L := L) (m := m0) (rest := pre ++ m :: post) hq
          rw [weight_cons] at hw
          have hlt : weight (p1 ++ pre) < w := by rw [weight_append]; omega
          obtain ⟨j, rest, hj, e1, e2⟩ := ih _ hlt (k + 1) (p1 ++ pre) post (Nat.le_refl _) (by rw [upto_succ, hop]; simp only [step]; rw [h1, List.append_assoc])
          exact ⟨j, rest, by omega, e1, e2⟩
      · obtain ⟨q, h1⟩ := step_appends c (run c .init (upto f k)) hop
        obtain ⟨j, rest, hj, e1, e2⟩ := ihd (k + 1) (post ++ q) (by rw [upto_succ, h1, hq]; simp) (by rw [← hd]; congr 1; omega)
        exact ⟨j, rest, by omega, e1, e2⟩

/-- only the transfer takes something from the inbound queue -/
theorem step_inbound (c : Cfg) (σ : State) {op : Op} {L : Nat} {m : Msg} (h : op ≠ .take L) (hm : m ∈ σ.inbound L) : m ∈ (step c σ op).inbound L := by
  cases op with
  | request a b o => exact hm
  | send a b x => exact hm
  | reply b s n x => simp only [step]; split <;> exact hm
  | turn K =>
    simp only [step, turn]
    split
    · exact hm
    · split
      · split
        · simp only [onReply]; split <;> exact hm
        · exact hm
      · simp only [upd]
        split
        · rename_i hL; subst hL; exact List.mem_append_left _ hm
        · exact hm
  | take K =>
    have : ¬ L = K := fun e => h (by rw [e])
    simpa [step, take, upd, this] using hm
  | expire s n => simp only [step, expire]; split <;> exact hm
  | stop a => exact hm

/-- a message in an inbound queue is transferred -/
theorem fair_taken (c : Cfg) (f : Nat → Op) (hf : Fair c f) {L : Nat} {m : Msg} (k : Nat) (hm : m ∈ (run c .init (upto f k)).inbound L) :
    ∃ j, k ≤ j ∧ m ∈ (run c .init (upto f j)).queue L := by
  obtain ⟨x, hx⟩ := run_homes f k L m (.inr hm)
  obtain ⟨d, hd⟩ := (hf x k).2
  rw [hx] at hd
  induction d generalizing k with
  | zero =>
    have hd : f k = .take L := hd
    exact ⟨k + 1, by omega, by rw [upto_succ, hd]; simp [step, take, upd, hm]⟩
  | succ d ih =>
    by_cases hop : f k = .take L
    · exact ⟨k + 1, by omega, by rw [upto_succ, hop]; simp [step, take, upd, hm]⟩
    · obtain ⟨j, hj, h⟩ := ih (k + 1) (by rw [upto_succ]; exact step_inbound c _ hop hm) (by rw [← hd]; congr 1; omega)
      exact ⟨j, by omega, h⟩

/-- a message comes to the head of the queue of the locality it is for -/
theorem fair_home (c : Cfg) (f : Nat → Op) (hf : Fair c f) {L : Nat} {m : Msg} {k : Nat} (hm : m ∈ (run c .init (upto f k)).queue L) :
    ∃ j rest, k ≤ j ∧ f j = .turn (c.loc m.to) ∧ (run c .init (upto f j)).queue (c.loc m.to) = m :: rest := by
  obtain ⟨pre, post, hq⟩ := List.append_of_mem hm
  obtain ⟨j, rest, hj, e1, e2⟩ := fair_head c f hf _ k pre post (Nat.le_refl _) hq
  by_cases hL : c.loc m.to = L
  · subst hL; exact ⟨j, rest, hj, e1, e2⟩
  · have hin : m ∈ (run c .init (upto f (j + 1))).inbound (c.loc m.to) := by
      rw [upto_succ, e1]
      simp only [step, turn, e2]
      rw [if_neg hL]
      simp [upd]
    obtain ⟨i, hi, h⟩ := fair_taken c f hf (j + 1) hin
    obtain ⟨pre, post, hq⟩ := List.append_of_mem h
    obtain ⟨j', rest', hj', e1, e2⟩ := fair_head c f hf _ i pre post (Nat.le_refl _) hq
    exact ⟨j', rest', by omega, e1, e2⟩

/-- **C82**. If the event loops go on, every message that is not a reply is seen at last, wherever it is on its way. -/
theorem C82_arrives (c : Cfg) (f : Nat → Op) (hf : Fair c f) {k L : Nat} {m : Msg}
    (hm : m ∈ (run c .init (upto f k)).queue L ∨ m ∈ (run c .init (upto f k)).inbound L) (hr : ∀ s n x, m.body ≠ .reply s n x) :
    ∃ j, k ≤ j ∧ .got m ∈ (run c .init (upto f j)).log := by
  have key : ∀ i, k ≤ i → m ∈ (run c .init (upto f i)).queue L → ∃ j, k ≤ j ∧ .got m ∈ (run c .init (upto f j)).log := by
    intro i hi hm
    obtain ⟨j, rest, hj, e1, e2⟩ := fair_home c f hf hm
    refine ⟨j + 1, by omega, ?_⟩
    rw [upto_succ, e1]
    simp only [step, turn, e2]
    rw [if_pos trivial]
    exact List.mem_cons_self
  rcases hm with hm | hm
  · exact key k (Nat.le_refl _) hm
  · obtain ⟨i, hi, h⟩ := fair_taken c f hf k hm
    exact key i hi h

/-- **C82**. If the event loops go on, every request is seen by the one who is asked. -/
theorem C82_asked (c : Cfg) (f : Nat → Op) (hf : Fair c f) {k a b o : Nat} (h : f k = .request a b o) :
    ∃ j n i, k ≤ j ∧ .made (c.supOf a) n a o ∈ (run c .init (upto f j)).log ∧
      .got ⟨.request (c.supOf a) n b, some a, i⟩ ∈ (run c .init (upto f j)).log := by
  have hq : (⟨.request (c.supOf a) ((run c .init (upto f k)).last (c.loc (c.supOf a)) + 1) b, some a, (run c .init (upto f k)).sent a⟩ : Msg) ∈
      (run c .init (upto f (k + 1))).queue (c.loc a) := by
    rw [upto_succ, h]; simp [step, request, push, upd]
  have hm : Ev.made (c.supOf a) ((run c .init (upto f k)).last (c.loc (c.supOf a)) + 1) a o ∈ (run c .init (upto f (k + 1))).log := by
    rw [upto_succ, h]; simp [step, request, push]
  obtain ⟨j, hj, hg⟩ := C82_arrives c f hf (.inl hq) (by simp)
  refine ⟨j, _, _, by omega, ?_, hg⟩
  obtain ⟨d, rfl⟩ := Nat.exists_eq_add_of_le hj
  clear hg hj hq
  induction d with
  | zero => exact hm
  | succ d ih => rw [← Nat.add_assoc, upto_succ]; exact step_log c _ _ ih

theorem responses_pos {s n : Nat} {l : List Ev} (h : responses s n l ≠ 0) : ∃ o p b i, .got ⟨.response s n o p, b, i⟩ ∈ l := by
  induction l with
  | nil => exact absurd rfl h
  | cons e l ih =>
    by_cases h0 : responses s n l = 0
    · unfold responses at h
      split at h
      · rename_i h1; cases h1
      · rename_i s' n' o p b i l' h1
        obtain ⟨rfl, rfl⟩ := List.cons.inj h1
        by_cases hc : s' = s ∧ n' = n
        · obtain ⟨rfl, rfl⟩ := hc
          exact ⟨_, _, _, _, List.mem_cons_self⟩
        · simp [hc, h0] at h
      · rename_i e' l' _ h1
        obtain ⟨rfl, rfl⟩ := List.cons.inj h1
        exact absurd h0 h
    · obtain ⟨o, p, b, i, hm⟩ := ih h0
      exact ⟨o, p, b, i, List.mem_cons_of_mem _ hm⟩

/-- **C82**. If the event loops go on and somebody replies to a request, or its timer expires, then its response is seen by the one it was asked for, or
the request was taken back with the end of the one who asked. -/
theorem C82_answered (c : Cfg) (f : Nat → Op) (hf : Fair c f) {k s n a o : Nat} (hm : .made s n a o ∈ (run c .init (upto f k)).log)
    (h : (∃ b x, f k = .reply b s n x) ∨ f k = .expire s n) :
    ∃ j, k ≤ j ∧ (.stopped a s n ∈ (run c .init (upto f j)).log ∨ ∃ p b i, .got ⟨.response s n o p, b, i⟩ ∈ (run c .init (upto f j)).log) := by
  have later : ∀ {e : Ev} {i : Nat}, e ∈ (run c .init (upto f i)).log → ∀ j, i ≤ j → e ∈ (run c .init (upto f j)).log := by
    intro e i he j hj
    obtain ⟨d, rfl⟩ := Nat.exists_eq_add_of_le hj
    clear hj
    induction d with
    | zero => exact he
    | succ d ih => rw [← Nat.add_assoc, upto_succ]; exact step_log c _ _ ih
  -- it is not waited for any more
  have hgone : ∃ j, k ≤ j ∧ AMap.find ((run c .init (upto f j)).pend s) n = none := by
    rcases h with ⟨b, x, h⟩ | h
    · have hany : (run c .init (upto f k)).log.any (isMade s n) = true := List.any_eq_true.2 ⟨_, hm, by simp [isMade]⟩
      have hq : (⟨.reply s n x, some b, (run c .init (upto f k)).sent b⟩ : Msg) ∈ (run c .init (upto f (k + 1))).queue (c.loc b) := by
        rw [upto_succ, h]; simp only [step]; rw [if_pos hany]; simp [push, upd]
      obtain ⟨j, rest, hj, e1, e2⟩ := fair_home c f hf hq
      refine ⟨j + 1, by omega, ?_⟩
      rw [upto_succ, e1]
      generalize run c .init (upto f j) = σ at *
      simp only [step, turn, e2]
      rw [if_pos trivial]
      simp only [onReply]
      split
      · assumption
      · simp [upd, AMap.find_erase]
    · refine ⟨k + 1, by omega, ?_⟩
      rw [upto_succ, h]
      simp only [step, expire]
      split
      · assumption
      · simp [upd, AMap.find_erase]
  obtain ⟨j, hj, hn⟩ := hgone
  rcases C82_accounted c (upto f j) (later hm j hj) with ⟨h1, _⟩ | ⟨_, h1, _⟩ | ⟨_, _, _, L, m, p, h1, h2⟩ | ⟨_, _, h1⟩
  · rw [hn] at h1; cases h1
  · exact ⟨j, hj, .inl h1⟩
  · obtain ⟨j', hj', hg⟩ := C82_arrives c f hf (m := m) h1 (by rw [h2]; simp)
    obtain ⟨body, b, i⟩ := m
    simp only at h2
    subst h2
    exact ⟨j', by omega, .inr ⟨p, b, i, hg⟩⟩
  · obtain ⟨o', p, b, i, hg⟩ := responses_pos (s := s) (n := n) (l := (run c .init (upto f j)).log) (by omega)
    obtain ⟨⟨a', hm'⟩, _⟩ := C82_right_one c (upto f j) hg
    obtain ⟨_, rfl⟩ := C82_numbers c (upto f j) (later hm j hj) hm'
    exact ⟨j, hj, .inr ⟨p, b, i, hg⟩⟩

end Verif.Across
