import Verif.Across.Count
/-!
# Every step keeps the account
-/

namespace Verif.Across

theorem pop_cq {σ : State} {L : Nat} {m : Msg} {rest : List Msg} (hq : σ.queue L = m :: rest) (s n K : Nat) :
    cq s n (upd σ.queue L rest K) + (if K = L then one s n m else 0) = cq s n (σ.queue K) := by
  simp only [upd]
  split
  · rename_i h; subst h; rw [hq, cq_cons]; omega
  · rfl

theorem pop_mem {σ : State} {L : Nat} {m : Msg} {rest : List Msg} (hq : σ.queue L = m :: rest) {K : Nat} {m' : Msg}
    (h : m' ∈ upd σ.queue L rest K) : m' ∈ σ.queue K := by
  simp only [upd] at h
  split at h
  · rename_i hK; subst hK; rw [hq]; exact List.mem_cons_of_mem _ h
  · exact h

/-- the locality of a response that is on its way, in terms of the request that was made -/
theorem resp_of {c : Cfg} {σ : State} (i : CInv c σ) {s n a o : Nat} (hm : .made s n a o ∈ σ.log) {m : Msg} (ht : Honest σ.log m)
    (h1 : one s n m ≠ 0) : one s n m = 1 ∧ m.to = o ∧ ∃ p, m.body = .response s n o p := by
  obtain ⟨h2, o', p, hb⟩ := one_pos h1
  have := ht
  simp only [Honest, hb] at this
  obtain ⟨⟨a', hm'⟩, _⟩ := this
  obtain ⟨_, rfl⟩ := i.uniq _ _ _ _ _ _ hm hm'
  exact ⟨h2, by simp [Msg.to, hb], p, hb⟩

theorem replied_cinv {c : Cfg} {σ : State} (i : CInv c σ) (b j s n x : Nat) : CInv c { σ with log := .replied b j s n x :: σ.log } := by
  have hsub : ∀ e ∈ σ.log, e ∈ Ev.replied b j s n x :: σ.log := fun e he => List.mem_cons_of_mem _ he
  have hback : ∀ e, e ∈ Ev.replied b j s n x :: σ.log → (∀ b j s n x, e ≠ .replied b j s n x) → e ∈ σ.log := by
    intro e he hn
    rcases List.mem_cons.1 he with rfl | he
    · exact absurd rfl (hn _ _ _ _ _)
    · exact he
  refine ⟨?_, ?_, ?_, ?_, ?_, ?_, ?_, ?_, ?_, ?_⟩
  · exact fun L m hm => ⟨(i.que L m hm).1.mono hsub, (i.que L m hm).2⟩
  · exact fun L m hm => ⟨(i.inb L m hm).1.mono hsub, (i.inb L m hm).2⟩
  · exact fun m hm => (i.got m (hback _ hm (by simp))).mono hsub
  · exact fun s n a o h => hsub _ (i.pend _ _ _ _ h)
  · exact fun s n a o h => i.low _ _ _ _ (hback _ h (by simp))
  · exact fun s n a o a' o' h h' => i.uniq _ _ _ _ _ _ (hback _ h (by simp)) (hback _ h' (by simp))
  · intro s n a o h
    have := i.count _ _ _ _ (hback _ h (by simp))
    simpa [way, waiting, responses, List.countP_cons, isResolved, isStopped] using this
  · exact fun s n a o b h h' => i.stops _ _ _ _ _ (hback _ h (by simp)) (hback _ h' (by simp))
  · exact fun s n p h => (i.only s n p (hback _ h (by simp))).imp fun a => Exists.imp fun o => hsub _
  · exact fun s n p h => (i.only' s n p (hback _ h (by simp))).imp fun a => Exists.imp fun o => hsub _

/-- a request ends with one response in the queue of its supervisor; `rest` is the queue before -/
theorem resolve_cinv {c : Cfg} {σ : State} (i : CInv c σ) {s n a o : Nat} (p : Option Nat) (m : Msg) (hb : m.body = .response s n o p)
    (hf : AMap.find (σ.pend s) n = some (a, o)) (hp : ∀ x, p = some x → ∃ b, m.src = some b ∧ .replied b m.seq s n x ∈ σ.log) (q : List Msg)
    (hq : ∀ s' n', cq s' n' q = one s' n' m + cq s' n' (σ.queue (c.loc s))) (hm : ∀ m', m' ∈ q → m' = m ∨ m' ∈ σ.queue (c.loc s)) :
    CInv c { σ with pend := upd σ.pend s (AMap.erase (σ.pend s) n), queue := upd σ.queue (c.loc s) q, log := .resolved s n p :: σ.log } := by
  have hsub : ∀ e ∈ σ.log, e ∈ Ev.resolved s n p :: σ.log := fun e he => List.mem_cons_of_mem _ he
  have hback : ∀ e, e ∈ Ev.resolved s n p :: σ.log → (∀ s n p, e ≠ .resolved s n p) → e ∈ σ.log := by
    intro e he hn
    rcases List.mem_cons.1 he with rfl | he
    · exact absurd rfl (hn _ _ _)
    · exact he
  have hmade := i.pend _ _ _ _ hf
  have hhon : Honest (Ev.resolved s n p :: σ.log) m := by
    simp only [Honest, hb]
    exact ⟨⟨a, hsub _ hmade⟩, List.mem_cons_self, fun x hx => (hp x hx).imp fun b hb => ⟨hb.1, hsub _ hb.2⟩⟩
  refine ⟨?_, ?_, ?_, ?_, ?_, ?_, ?_, ?_, ?_, ?_⟩
  · intro L m' h
    simp only [upd] at h
    split at h
    · rename_i hL; subst hL
      rcases hm m' h with rfl | h
      · refine ⟨hhon, fun s' n' o' p' h' => ?_⟩
        rw [hb] at h'; cases h'; exact .inl rfl
      · exact ⟨(i.que _ m' h).1.mono hsub, (i.que _ m' h).2⟩
    · exact ⟨(i.que _ m' h).1.mono hsub, (i.que _ m' h).2⟩
  · exact fun L m hm => ⟨(i.inb L m hm).1.mono hsub, (i.inb L m hm).2⟩
  · exact fun m hm => (i.got m (hback _ hm (by simp))).mono hsub
  · intro s' n' a' o' h
    simp only [upd] at h
    split at h
    · rename_i hs; subst hs
      rw [AMap.find_erase] at h
      split at h
      · cases h
      · exact hsub _ (i.pend _ _ _ _ h)
    · exact hsub _ (i.pend _ _ _ _ h)
  · exact fun s n a o h => i.low _ _ _ _ (hback _ h (by simp))
  · exact fun s n a o a' o' h h' => i.uniq _ _ _ _ _ _ (hback _ h (by simp)) (hback _ h' (by simp))
  · intro s' n' a' o' h0
    have h := hback _ h0 (by simp)
    clear h0
    have hk := i.count _ _ _ _ h
    by_cases hsn : s' = s ∧ n' = n
    · obtain ⟨rfl, rfl⟩ := hsn
      obtain ⟨rfl, rfl⟩ := i.uniq _ _ _ _ _ _ hmade h
      have h1 : one s' n' m = 1 := by simp [one, hb]
      have hw : waiting σ s' n' = 1 := by simp [waiting, hf]
      have hq1 := hq s' n'
      simp only [way, waiting, upd, responses, List.countP_cons, isResolved, isStopped, if_true, AMap.find_erase_self] at hk hw hq1 ⊢
      simp only [hf] at hk
      by_cases hl : c.loc o' = c.loc s'
      · simp only [hl, if_true] at hk ⊢; simp [-List.countP_eq_zero, -Nat.add_eq_zero_iff] at hk ⊢; omega
      · simp only [hl, if_false] at hk ⊢; simp [-List.countP_eq_zero, -Nat.add_eq_zero_iff] at hk ⊢; omega
    · have h1 : one s' n' m = 0 := one_zero (fun o2 p2 h2 => by rw [hb] at h2; cases h2; exact hsn ⟨rfl, rfl⟩)
      have hq1 := hq s' n'
      have hqs : ∀ K, cq s' n' (upd σ.queue (c.loc s) q K) = cq s' n' (σ.queue K) := by
        intro K; simp only [upd]; split
        · rename_i hK; subst hK; omega
        · rfl
      have hw : waiting { σ with pend := upd σ.pend s (AMap.erase (σ.pend s) n), queue := upd σ.queue (c.loc s) q, log := .resolved s n p :: σ.log } s' n' =
          waiting σ s' n' := by
        simp only [waiting, upd]
        by_cases hs : s' = s
        · subst hs
          have : n' ≠ n := fun h => hsn ⟨rfl, h⟩
          simp [AMap.find_erase_ne _ this]
        · simp [hs]
      rw [hw]
      have hr : isResolved s' n' (.resolved s n p) = false := by
        simp only [isResolved, decide_eq_false_iff_not]; exact fun h => hsn ⟨h.1.symm, h.2.symm⟩
      simpa [way, hqs, responses, List.countP_cons, hr, isStopped] using hk
  · exact fun s n a o b h h' => i.stops _ _ _ _ _ (hback _ h (by simp)) (hback _ h' (by simp))
  · intro s' n' p' h
    rcases List.mem_cons.1 h with h | h
    · cases h; exact ⟨a, o, hsub _ hmade⟩
    · exact (i.only _ _ _ h).imp fun a => Exists.imp fun o => hsub _
  · exact fun s n p h => (i.only' s n p (hback _ h (by simp))).imp fun a => Exists.imp fun o => hsub _

theorem turn_cinv {c : Cfg} {σ : State} (i : CInv c σ) (L : Nat) : CInv c (turn c L σ) := by
  simp only [turn]
  split
  · exact i
  · rename_i m rest hq
    have hm : m ∈ σ.queue L := by rw [hq]; exact List.mem_cons_self
    have hpop := pop_cq hq
    by_cases hd : c.loc m.to = L
    · rw [if_pos hd]
      -- a message that is no response is dropped
      have hdrop : (∀ s n o p, m.body ≠ .response s n o p) → CInv c { σ with queue := upd σ.queue L rest } := by
        intro hr
        refine { i with que := ?_, count := ?_ }
        · exact fun K m' h => i.que K m' (pop_mem hq h)
        · intro s n a o h
          have hk := i.count s n a o h
          have h0 : one s n m = 0 := one_zero (fun o p => hr s n o p)
          have hqs : ∀ K, cq s n (upd σ.queue L rest K) = cq s n (σ.queue K) := by
            intro K; have := hpop s n K; rw [h0] at this; simpa using this
          simpa [way, hqs, waiting] using hk
      split
      · rename_i s n x hb
        have hto : c.loc s = L := by simpa [Msg.to, hb] using hd
        have hd1 := hdrop (by intro _ _ _ _ h; rw [hb] at h; cases h)
        simp only [onReply]
        split
        · exact hd1
        · rename_i a o hf
          subst hto
          have hh := (i.que _ m hm).1
          simp only [Honest, hb] at hh
          obtain ⟨b, hb1, hb2, _⟩ := hh
          have hr := resolve_cinv hd1 (s := s) (n := n) (a := a) (o := o) (some x) ⟨.response s n o (some x), m.src, m.seq⟩ rfl hf
            (fun y hy => by cases hy; exact ⟨b, hb1, hb2⟩) (uplift (upd σ.queue (c.loc s) rest (c.loc s) ++ [⟨.response s n o (some x), m.src, m.seq⟩]))
            (fun s' n' => by rw [uplift_append, cq_cons]) (fun m' h => by rw [uplift_append] at h; simpa using h)
          exact hr
      · rename_i hnr
        have hsub : ∀ e ∈ σ.log, e ∈ Ev.got m :: σ.log := fun e he => List.mem_cons_of_mem _ he
        have hback : ∀ e, e ∈ Ev.got m :: σ.log → (∀ m, e ≠ .got m) → e ∈ σ.log := by
          intro e he hn
          rcases List.mem_cons.1 he with rfl | he
          · exact absurd rfl (hn _)
          · exact he
        refine ⟨?_, ?_, ?_, ?_, ?_, ?_, ?_, ?_, ?_, ?_⟩
        · exact fun K m' h => ⟨(i.que K m' (pop_mem hq h)).1.mono hsub, (i.que K m' (pop_mem hq h)).2⟩
        · exact fun L m hm => ⟨(i.inb L m hm).1.mono hsub, (i.inb L m hm).2⟩
        · intro m' h
          rcases List.mem_cons.1 h with h | h
          · cases h; exact (i.que L m hm).1.mono hsub
          · exact (i.got m' h).mono hsub
        · exact fun s n a o h => hsub _ (i.pend _ _ _ _ h)
        · exact fun s n a o h => i.low _ _ _ _ (hback _ h (by simp))
        · exact fun s n a o a' o' h h' => i.uniq _ _ _ _ _ _ (hback _ h (by simp)) (hback _ h' (by simp))
        · intro s n a o h
          have h := hback _ h (by simp)
          have hk := i.count _ _ _ _ h
          have p1 := hpop s n (c.loc s)
          have p2 := hpop s n (c.loc o)
          have hw : waiting { σ with queue := upd σ.queue L rest, log := .got m :: σ.log } s n = waiting σ s n := rfl
          rw [hw]
          simp only [way, responses_got, List.countP_cons, isResolved, isStopped] at hk ⊢
          by_cases h1 : one s n m = 0
          · simp only [h1, ite_self, Nat.add_zero] at p1 p2
            simp only [p1, p2, h1]
            simpa using hk
          · obtain ⟨h1, hto, _⟩ := resp_of i h (i.que L m hm).1 h1
            have hoL : c.loc o = L := hto ▸ hd
            simp only [h1] at p1 p2 ⊢
            simp only [hoL, if_true] at p2 hk ⊢
            by_cases hs : L = c.loc s
            · simp only [hs, if_true] at p1 hk ⊢; simp at hk ⊢; omega
            · have hs' : ¬ c.loc s = L := fun h => hs h.symm
              simp only [hs, hs', if_false] at p1 hk ⊢; simp at hk ⊢; omega
        · exact fun s n a o b h h' => i.stops _ _ _ _ _ (hback _ h (by simp)) (hback _ h' (by simp))
        · exact fun s n p h => (i.only s n p (hback _ h (by simp))).imp fun a => Exists.imp fun o => hsub _
        · exact fun s n p h => (i.only' s n p (hback _ h (by simp))).imp fun a => Exists.imp fun o => hsub _
    · rw [if_neg hd]
      have hin : ∀ s n K, cq s n (upd σ.inbound (c.loc m.to) (σ.inbound (c.loc m.to) ++ [m]) K) =
          cq s n (σ.inbound K) + (if K = c.loc m.to then one s n m else 0) := by
        intro s n K
        simp only [upd]
        split
        · rename_i hK; subst hK; rw [cq_append, cq_cons]; simp [cq]
        · rfl
      refine { i with que := ?_, inb := ?_, count := ?_ }
      · exact fun K m' h => i.que K m' (pop_mem hq h)
      · intro K m' h
        simp only [upd] at h
        split at h
        · rename_i hK
          rw [List.mem_append] at h
          rcases h with h | h
          · exact i.inb K m' (hK ▸ h)
          · simp at h; subst h
            refine ⟨(i.que L m' hm).1, fun s n o p hb => ?_⟩
            have hto : m'.to = o := by simp [Msg.to, hb]
            rw [hto] at hK hd
            refine ⟨hK, fun he => ?_⟩
            rcases (i.que L m' hm).2 s n o p hb with h | h
            · exact hd (he.trans h.symm)
            · exact hd h.symm
        · exact i.inb K m' h
      · intro s n a o h
        have hk := i.count _ _ _ _ h
        have p1 := hpop s n (c.loc s)
        have p2 := hpop s n (c.loc o)
        have p3 := hin s n (c.loc o)
        have hw : waiting { σ with queue := upd σ.queue L rest, inbound := upd σ.inbound (c.loc m.to) (σ.inbound (c.loc m.to) ++ [m]) } s n = waiting σ s n := rfl
        rw [hw]
        simp only [way] at hk ⊢
        by_cases h1 : one s n m = 0
        · simp only [h1, ite_self, Nat.add_zero] at p1 p2 p3
          simp only [p1, p2, p3]
          exact hk
        · obtain ⟨h1, hto, p, hb⟩ := resp_of i h (i.que L m hm).1 h1
          rw [hto] at hd p3
          have hsL : L = c.loc s := by
            rcases (i.que L m hm).2 s n o p hb with h | h
            · exact h
            · exact absurd h.symm hd
          subst hsL
          rw [hto]
          simp only [h1, hd, if_true, if_false] at p1 p2 p3 hk ⊢
          omega

theorem take_cinv {c : Cfg} {σ : State} (i : CInv c σ) (L : Nat) : CInv c (take L σ) := by
  refine { i with que := ?_, inb := ?_, count := ?_ }
  · intro K m h
    simp only [take, upd] at h
    split at h
    · rename_i hK; subst hK
      rw [List.mem_append] at h
      rcases h with h | h
      · exact i.que K m h
      · exact ⟨(i.inb K m h).1, fun s n o p hb => .inr ((i.inb K m h).2 s n o p hb).1⟩
    · exact i.que K m h
  · intro K m h
    simp only [take, upd] at h
    split at h
    · cases h
    · exact i.inb K m h
  · intro s n a o h
    have hk := i.count _ _ _ _ h
    have hw : waiting (take L σ) s n = waiting σ s n := rfl
    rw [hw]
    -- responses in the inbound queue of a locality are for actors there, from elsewhere
    have hin : ∀ K, cq s n (σ.inbound K) ≠ 0 → K = c.loc o ∧ c.loc o ≠ c.loc s := by
      intro K hz
      obtain ⟨m, hm, o', p, hb⟩ := cq_pos hz
      have hh := (i.inb K m hm).1
      simp only [Honest, hb] at hh
      obtain ⟨⟨a', hm'⟩, _⟩ := hh
      obtain ⟨_, rfl⟩ := i.uniq _ _ _ _ _ _ h hm'
      exact (i.inb K m hm).2 s n _ p hb
    have h2 : ∀ K, cq s n ((take L σ).queue K) = cq s n (σ.queue K) + (if K = L then cq s n (σ.inbound L) else 0) := by
      intro K; simp only [take, upd]; split
      · rename_i hK; subst hK; rw [cq_append]
      · rfl
    have h3 : ∀ K, cq s n ((take L σ).inbound K) = (if K = L then 0 else cq s n (σ.inbound K)) := by
      intro K; simp only [take, upd]; split
      · rfl
      · rfl
    have hlog : (take L σ).log = σ.log := rfl
    simp only [way, h2, h3, hlog] at hk ⊢
    by_cases hz : cq s n (σ.inbound L) = 0
    · simp only [hz, ite_self, Nat.add_zero]
      by_cases hoL : c.loc o = L
      · subst hoL; simp only [hz] at hk; simpa using hk
      · simp only [hoL, if_false]; exact hk
    · obtain ⟨rfl, hne⟩ := hin L hz
      have hne' : ¬ c.loc s = c.loc o := fun h => hne h.symm
      simp only [hne, hne', if_false, if_true] at hk ⊢
      omega

theorem expire_cinv {c : Cfg} {σ : State} (i : CInv c σ) (s n : Nat) : CInv c (expire c s n σ) := by
  simp only [expire]
  split
  · exact i
  · rename_i a o hf
    exact resolve_cinv i none ⟨.response s n o none, none, 0⟩ rfl hf (fun x hx => by cases hx) _
      (fun s' n' => by rw [cq_append, cq_cons]; simp [cq]; omega) (fun m' h => by simp at h; exact h.symm)

end Verif.Across
