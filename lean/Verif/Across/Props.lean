import Verif.Across.Steps
/-!
# C82: requests between event loops
-/

namespace Verif.Across

theorem count_stopped (a s n : Nat) {m : AMap Nat (Nat × Nat)} (hn : (AMap.keys m).Nodup) :
    ((m.filter (fun p => decide (p.2.1 = a))).map (fun p => Ev.stopped a s p.1)).countP (isStopped s n) +
      (if (AMap.find (m.filter (fun p => decide (p.2.1 ≠ a))) n).isSome then 1 else 0) = if (AMap.find m n).isSome then 1 else 0 := by
  induction m with
  | nil => rfl
  | cons p r ih =>
    obtain ⟨k, b, o⟩ := p
    simp only [AMap.keys, List.map_cons, List.nodup_cons] at hn
    have ih := ih hn.2
    by_cases hk : k = n
    · subst hk
      have hr : AMap.find r k = none := (AMap.find_eq_none_iff r k).2 hn.1
      rw [hr] at ih
      by_cases hb : b = a
      · have hd : (decide (b ≠ a)) = false := by simp [hb]
        have hd' : (decide (b = a)) = true := by simp [hb]
        simp only [List.filter_cons, hd, hd', if_true, List.map_cons, List.countP_cons, isStopped, AMap.find]
        simp only [Option.isSome_none, Bool.false_eq_true, if_false, Option.isSome_some, if_true, and_self, decide_true] at ih ⊢
        omega
      · have hd : (decide (b ≠ a)) = true := by simp [hb]
        have hd' : (decide (b = a)) = false := by simp [hb]
        simp only [List.filter_cons, hd, hd', if_true, AMap.find]
        simp only [Option.isSome_none, Bool.false_eq_true, if_false, Option.isSome_some, if_true] at ih ⊢
        omega
    · by_cases hb : b = a
      · have hd : (decide (b ≠ a)) = false := by simp [hb]
        have hd' : (decide (b = a)) = true := by simp [hb]
        simp only [List.filter_cons, hd, hd', if_true, List.map_cons, List.countP_cons, isStopped, AMap.find, hk, if_false]
        simpa [hk] using ih
      · have hd : (decide (b ≠ a)) = true := by simp [hb]
        have hd' : (decide (b = a)) = false := by simp [hb]
        simp only [List.filter_cons, hd, hd', if_true, AMap.find, hk, if_false]
        simpa using ih

theorem responses_stopped (s n a t : Nat) (l : AMap Nat (Nat × Nat)) (r : List Ev) :
    responses s n (l.map (fun p => Ev.stopped a t p.1) ++ r) = responses s n r := by
  induction l with
  | nil => rfl
  | cons p l ih => simpa [responses] using ih

theorem stop_cinv {c : Cfg} {σ : State} (i : CInv c σ) (j : Nums c σ) (a : Nat) : CInv c (stop c a σ) := by
  generalize hS : ((σ.pend (c.supOf a)).filter (fun p => decide (p.2.1 = a))).map (fun p => Ev.stopped a (c.supOf a) p.1) = S
  have hlog : (stop c a σ).log = S ++ σ.log := by simp [stop, hS]
  have hsub : ∀ e ∈ σ.log, e ∈ S ++ σ.log := fun e he => List.mem_append.2 (.inr he)
  have hin : ∀ e ∈ S, ∃ n o, e = .stopped a (c.supOf a) n ∧ AMap.find (σ.pend (c.supOf a)) n = some (a, o) := by
    intro e he
    rw [← hS, List.mem_map] at he
    obtain ⟨⟨k, b, o⟩, hk, rfl⟩ := he
    rw [List.mem_filter] at hk
    have hb : b = a := by simpa using hk.2
    subst hb
    exact ⟨k, o, rfl, AMap.find_of_mem (j.nodup _) hk.1⟩
  have hback : ∀ e, e ∈ S ++ σ.log → (∀ a s n, e ≠ .stopped a s n) → e ∈ σ.log := by
    intro e he hn
    rcases List.mem_append.1 he with he | he
    · obtain ⟨n, o, rfl, _⟩ := hin e he; exact absurd rfl (hn _ _ _)
    · exact he
  refine ⟨?_, ?_, ?_, ?_, ?_, ?_, ?_, ?_, ?_, ?_⟩
  · rw [hlog]; exact fun L m hm => ⟨(i.que L m hm).1.mono hsub, (i.que L m hm).2⟩
  · rw [hlog]; exact fun L m hm => ⟨(i.inb L m hm).1.mono hsub, (i.inb L m hm).2⟩
  · rw [hlog]; exact fun m hm => (i.got m (hback _ hm (by simp))).mono hsub
  · rw [hlog]
    intro s n a' o' h
    refine hsub _ ?_
    simp only [stop, upd] at h
    split at h
    · rename_i hs; subst hs
      rw [find_filter (j.nodup _)] at h
      cases hf : AMap.find (σ.pend (c.supOf a)) n with
      | none => rw [hf] at h; cases h
      | some v =>
        rw [hf] at h
        simp only [Option.filter] at h
        split at h
        · cases h; exact i.pend _ _ _ _ hf
        · cases h
    · exact i.pend _ _ _ _ h
  · rw [hlog]; exact fun s n a o h => i.low _ _ _ _ (hback _ h (by simp))
  · rw [hlog]; exact fun s n a o a' o' h h' => i.uniq _ _ _ _ _ _ (hback _ h (by simp)) (hback _ h' (by simp))
  · rw [hlog]
    intro s n a' o' h
    have hk := i.count _ _ _ _ (hback _ h (by simp))
    have hway : way c (stop c a σ) s n o' = way c σ s n o' := rfl
    have hres : (S ++ σ.log).countP (isResolved s n) = σ.log.countP (isResolved s n) := by
      rw [List.countP_append]
      have : S.countP (isResolved s n) = 0 := by
        rw [List.countP_eq_zero]; intro e he
        obtain ⟨k, o, rfl, _⟩ := hin e he; simp [isResolved]
      omega
    have hresp : responses s n (S ++ σ.log) = responses s n σ.log := by rw [← hS]; exact responses_stopped _ _ _ _ _ _
    have hst : S.countP (isStopped s n) + waiting (stop c a σ) s n = waiting σ s n := by
      by_cases hs : s = c.supOf a
      · subst hs
        have := count_stopped a (c.supOf a) n (j.nodup (c.supOf a))
        rw [← hS]
        simpa [waiting, stop, upd] using this
      · have : S.countP (isStopped s n) = 0 := by
          rw [List.countP_eq_zero]; intro e he
          obtain ⟨k, o, rfl, _⟩ := hin e he
          simp only [isStopped, decide_eq_true_eq]
          exact fun hc => hs hc.1.symm
        rw [this]
        simp [waiting, stop, upd, hs]
    rw [hway, hres, hresp, List.countP_append]
    exact ⟨hk.1, by omega⟩
  · rw [hlog]
    intro s n a' o' b h h'
    have h := hback _ h (by simp)
    rcases List.mem_append.1 h' with h' | h'
    · obtain ⟨k, o, he, hf⟩ := hin _ h'
      cases he
      exact (i.uniq _ _ _ _ _ _ h (i.pend _ _ _ _ hf)).1
    · exact i.stops _ _ _ _ _ h h'
  · rw [hlog]; exact fun s n p h => (i.only s n p (hback _ h (by simp))).imp fun a => Exists.imp fun o => hsub _
  · rw [hlog]
    intro s n b h
    rcases List.mem_append.1 h with h | h
    · obtain ⟨k, o, he, hf⟩ := hin _ h
      cases he
      exact ⟨_, _, hsub _ (i.pend _ _ _ _ hf)⟩
    · exact (i.only' s n b h).imp fun a => Exists.imp fun o => hsub _

theorem step_cinv {c : Cfg} {σ : State} (i : CInv c σ) (j : Nums c σ) (op : Op) : CInv c (step c σ op) := by
  cases op with
  | request a b o =>
    simp only [step, request]
    exact push_cinv (made_cinv i (c.supOf a) a o) a _ (by simp) trivial
  | send a b x => exact push_cinv i a _ (by simp) trivial
  | reply b s n x =>
    simp only [step]
    split
    · rename_i h
      obtain ⟨e, he, hm⟩ := List.any_eq_true.1 h
      cases e with
      | made s' n' a o =>
        simp only [isMade, decide_eq_true_eq] at hm
        obtain ⟨rfl, rfl⟩ := hm
        refine push_cinv (replied_cinv i b (σ.sent b) s' n' x) b _ (by simp) ?_
        exact ⟨b, rfl, List.mem_cons_self, a, o, List.mem_cons_of_mem _ he⟩
      | _ => simp [isMade] at hm
    · exact i
  | turn L => exact turn_cinv i L
  | take L => exact take_cinv i L
  | expire s n => exact expire_cinv i s n
  | stop a => exact stop_cinv i j a

theorem run_cinv {c : Cfg} {σ : State} (i : CInv c σ) (j : Nums c σ) (ops : List Op) : CInv c (run c σ ops) := by
  induction ops generalizing σ with
  | nil => exact i
  | cons op r ih => exact ih (step_cinv i j op) (step_nums j op)

/-- **C82**. A response comes to whom it was asked for, and says what somebody replied to just this request (or that nobody did in time), although numbers
of requests of different localities are the same. -/
theorem C82_right_one (c : Cfg) (ops : List Op) {s n o : Nat} {p : Option Nat} {b : Option Nat} {i : Nat}
    (h : .got ⟨.response s n o p, b, i⟩ ∈ (run c .init ops).log) :
    (∃ a, .made s n a o ∈ (run c .init ops).log) ∧ ∀ x, p = some x → ∃ b', b = some b' ∧ .replied b' i s n x ∈ (run c .init ops).log := by
  have := (run_cinv (CInv.init c) (Nums.init c) ops).got _ h
  exact ⟨this.1, this.2.2⟩

/-- **C82**. A request has at most one response, whatever the localities of the one who asks, of those who reply and of the one who gets the response. -/
theorem C82_once (c : Cfg) (ops : List Op) (s n : Nat) : responses s n (run c .init ops).log ≤ 1 := by
  have i := run_cinv (CInv.init c) (Nums.init c) ops
  by_cases h : ∃ a o, .made s n a o ∈ (run c .init ops).log
  · obtain ⟨a, o, h⟩ := h
    have := i.count _ _ _ _ h
    omega
  · have := (fresh i (s := s) (n := n) (fun a o hm => h ⟨a, o, hm⟩)).2.2.1
    omega

/-- **C82**. Nobody else has the number of a request in the same supervisor; the number is never used again. -/
theorem C82_numbers (c : Cfg) (ops : List Op) {s n a o a' o' : Nat} (h : .made s n a o ∈ (run c .init ops).log)
    (h' : .made s n a' o' ∈ (run c .init ops).log) : a' = a ∧ o' = o :=
  (run_cinv (CInv.init c) (Nums.init c) ops).uniq _ _ _ _ _ _ h h'

/-- **C82**. A request is waited for, or it was taken back with the end of the one who asked, or its response is on its way or has been seen: exactly one
of these. -/
theorem C82_accounted (c : Cfg) (ops : List Op) {s n a o : Nat} (h : .made s n a o ∈ (run c .init ops).log) :
    let σ := run c .init ops
    (AMap.find (σ.pend s) n = some (a, o) ∧ .stopped a s n ∉ σ.log ∧ responses s n σ.log = 0) ∨
    (AMap.find (σ.pend s) n = none ∧ .stopped a s n ∈ σ.log ∧ responses s n σ.log = 0) ∨
    (AMap.find (σ.pend s) n = none ∧ .stopped a s n ∉ σ.log ∧ responses s n σ.log = 0 ∧
      ∃ L m p, (m ∈ σ.queue L ∨ m ∈ σ.inbound L) ∧ m.body = .response s n o p) ∨
    (AMap.find (σ.pend s) n = none ∧ .stopped a s n ∉ σ.log ∧ responses s n σ.log = 1) := by
  intro σ
  have i : CInv c σ := run_cinv (CInv.init c) (Nums.init c) ops
  obtain ⟨h1, h2⟩ := i.count _ _ _ _ h
  have hst : .stopped a s n ∉ σ.log ↔ σ.log.countP (isStopped s n) = 0 := by
    rw [List.countP_eq_zero]
    constructor
    · intro hn e he hs
      cases e <;> simp [isStopped] at hs
      obtain ⟨rfl, rfl⟩ := hs
      have := i.stops _ _ _ _ _ h he
      subst this
      exact hn he
    · intro hz hm; exact hz _ hm (by simp [isStopped])
  have hmsg : way c σ s n o ≠ 0 → ∃ L m p, (m ∈ σ.queue L ∨ m ∈ σ.inbound L) ∧ m.body = .response s n o p := by
    intro hw
    have hx : ∃ L, cq s n (σ.queue L) ≠ 0 ∨ cq s n (σ.inbound L) ≠ 0 := by
      simp only [way] at hw
      split at hw
      · exact ⟨_, .inl (by omega)⟩
      · by_cases hz : cq s n (σ.queue (c.loc s)) = 0
        · by_cases hz2 : cq s n (σ.queue (c.loc o)) = 0
          · exact ⟨c.loc o, .inr (by omega)⟩
          · exact ⟨_, .inl hz2⟩
        · exact ⟨_, .inl hz⟩
    obtain ⟨L, hL⟩ := hx
    have fin : ∀ m o' p, m.body = .response s n o' p → Honest σ.log m → m.body = .response s n o p := by
      intro m o' p hb hh
      simp only [Honest, hb] at hh
      obtain ⟨⟨a', hm'⟩, _⟩ := hh
      obtain ⟨_, rfl⟩ := i.uniq _ _ _ _ _ _ h hm'
      exact hb
    rcases hL with hL | hL
    · obtain ⟨m, hm, o', p, hb⟩ := cq_pos hL
      exact ⟨L, m, p, .inl hm, fin m o' p hb (i.que L m hm).1⟩
    · obtain ⟨m, hm, o', p, hb⟩ := cq_pos hL
      exact ⟨L, m, p, .inr hm, fin m o' p hb (i.inb L m hm).1⟩
  have hn0 : ¬ .stopped a s n ∉ σ.log ↔ σ.log.countP (isStopped s n) ≠ 0 := by rw [hst]
  cases hf : AMap.find (σ.pend s) n with
  | some v =>
    have hw : waiting σ s n = 1 := by simp [waiting, hf]
    have hm := i.pend s n v.1 v.2 (by rw [hf])
    obtain ⟨h3, h4⟩ := i.uniq _ _ _ _ _ _ h hm
    refine .inl ⟨by rw [← h3, ← h4], hst.2 (by omega), by omega⟩
  | none =>
    have hw : waiting σ s n = 0 := by simp [waiting, hf]
    refine .inr ?_
    by_cases hs : σ.log.countP (isStopped s n) = 0
    · refine .inr ?_
      by_cases hr : responses s n σ.log = 0
      · exact .inl ⟨rfl, hst.2 hs, hr, hmsg (by omega)⟩
      · exact .inr ⟨rfl, hst.2 hs, by omega⟩
    · exact .inl ⟨rfl, Classical.not_not.1 (hn0.2 hs), by omega⟩

/-- **C82**. When the first reply to a request that is waited for is taken from the queue, the response is the next message, before all others. -/
theorem C82_prompt (c : Cfg) (ops : List Op) {L s n x a o : Nat} {b : Option Nat} {i : Nat} {rest : List Msg}
    (hq : (run c .init ops).queue L = ⟨.reply s n x, b, i⟩ :: rest) (hs : c.loc s = L) (ho : c.loc o = L)
    (hf : AMap.find ((run c .init ops).pend s) n = some (a, o)) :
    (turn c L (turn c L (run c .init ops))).log = .got ⟨.response s n o (some x), b, i⟩ :: .resolved s n (some x) :: (run c .init ops).log ∧
    (turn c L (turn c L (run c .init ops))).queue L = rest := by
  generalize run c .init ops = σ at *
  have h1 : turn c L σ = { σ with
      pend := upd σ.pend s (AMap.erase (σ.pend s) n)
      queue := upd (upd σ.queue L rest) L (⟨.response s n o (some x), b, i⟩ :: rest)
      log := .resolved s n (some x) :: σ.log } := by
    simp [turn, hq, Msg.to, hs, onReply, hf, upd, uplift_append]
  rw [h1]
  simp [turn, upd, Msg.to, ho]

/-- **C82**. A reply to a request that is not waited for (any more) changes nothing: the message is gone. -/
theorem C82_late (c : Cfg) (ops : List Op) {L s n x : Nat} {b : Option Nat} {i : Nat} {rest : List Msg}
    (hq : (run c .init ops).queue L = ⟨.reply s n x, b, i⟩ :: rest) (hs : c.loc s = L) (hf : AMap.find ((run c .init ops).pend s) n = none) :
    turn c L (run c .init ops) = { run c .init ops with queue := upd (run c .init ops).queue L rest } := by
  simp [turn, hq, Msg.to, hs, onReply, hf]

/-- **C82**. What one actor sends to the actors of a locality, requests, replies (seen as responses) and other messages, is seen there in the order in
which it was sent, if the responses for this locality are asked for in it. -/
theorem C82_order_partial (c : Cfg) (hg : c.Good) (ops : List Op) {m m' : Msg} (ho : Own c (c.loc m.to) ops) {new old : List Ev} {b : Nat}
    (h : (run c .init ops).log = new ++ .got m :: old) (hm' : .got m' ∈ old) (hb : m.src = some b) (hb' : m'.src = some b)
    (hto : c.loc m'.to = c.loc m.to) : m'.seq < m.seq := by
  have i := run_oinv hg (OInv.init c (c.loc m.to)) (Nums.init c) ho
  have hs := i.sorted b
  have hl : seen c b (c.loc m.to) (run c .init ops).log = seen c b (c.loc m.to) new ++ m.seq :: seen c b (c.loc m.to) old := by
    rw [h]; simp [seen, tagAt, hb]
  have hmem : m'.seq ∈ seen c b (c.loc m.to) old := by
    simp only [seen, List.mem_filterMap]
    exact ⟨_, hm', by simp [tagAt, hb', hto]⟩
  simp only [line, hl, List.reverse_append, List.reverse_cons, List.append_assoc] at hs
  have h2 := (List.pairwise_append.1 hs).2.2 m'.seq (List.mem_reverse.2 hmem) m.seq (by simp)
  exact h2

end Verif.Across
