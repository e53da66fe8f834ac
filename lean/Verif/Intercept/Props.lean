import Verif.Intercept.Spec
/-!
# C75: tags change how handlers are called and nothing else
-/

namespace Verif.Intercept

/-- the tag of a handler -/
def H.top : H → Option Nat
  | .plain _ => none
  | .tagged _ t => some t

theorem upgrade_base (h : H) (t : Nat) : (h.upgrade t).base = h.base := by
  cases h with
  | plain b => rfl
  | tagged h' t' => by_cases e : t = t' <;> simp [H.upgrade, e, H.base]

theorem upgrade_top (h : H) (t : Nat) : (h.upgrade t).top = some t := by
  cases h with
  | plain b => rfl
  | tagged h' t' =>
    by_cases e : t = t'
    · subst e; simp [H.upgrade, H.top]
    · simp [H.upgrade, e, H.top]

theorem select_base (m : Msg) : ∀ h : H, h.select m = (m.ty == h.base.ty)
  | .plain _ => rfl
  | .tagged h _ => select_base m h

theorem noCheck_base (m : Msg) : ∀ (h : H) (σ : State), noCheck σ h m = { σ with log := .ran h.base.body m.id σ.intercepting :: σ.log }
  | .plain _, _ => rfl
  | .tagged h _, σ => noCheck_base m h σ

theorem repeatCont_ran (b : Nat) (m : Nat) : ∀ (n : Nat) (σ : State),
    repeatCont n (fun σ => { σ with log := .ran b m σ.intercepting :: σ.log }) σ =
      { σ with log := List.replicate n (.ran b m σ.intercepting) ++ σ.log }
  | 0, σ => rfl
  | n + 1, σ => by
    rw [repeatCont, repeatCont_ran b m n]
    simp only [List.replicate_succ']
    simp

theorem call_spec (sup : Sup) (σ : State) (hσ : σ.intercepting = false) (h : H) (m : Msg) :
    call sup σ h m = { σ with log := (expected sup h.base h.top m).reverse ++ σ.log } := by
  cases h with
  | plain b =>
    unfold call expected
    dsimp only
    by_cases e : m.ty = b.ty
    · rw [if_pos e, if_pos (show m.ty = (H.plain b).base.ty from e)]
      cases sup <;> simp [noCheck, Sup.times, Sup.blocks, H.top, H.base, hσ]
    · rw [if_neg e, if_neg (show ¬ m.ty = (H.plain b).base.ty from e)]; rfl
  | tagged h' t =>
    unfold call expected
    dsimp only
    rw [select_base]
    by_cases e : m.ty = (H.tagged h' t).base.ty
    · rw [if_pos (by simpa using e), if_pos e]
      have hk : (fun σ => noCheck σ (.tagged h' t) m) = (fun σ : State => { σ with log := .ran h'.base.body m.id σ.intercepting :: σ.log }) := by
        funext σ; rw [noCheck_base]; rfl
      rw [hk]
      cases sup with
      | basic => simp [intercept, Sup.times, Sup.blocks, H.top, H.base, hσ]
      | thread =>
        by_cases hio : t = io
        · subst hio; simp [intercept, Sup.times, Sup.blocks, H.top, H.base]
          cases σ; simp at hσ ⊢; exact hσ
        · simp [intercept, Sup.times, Sup.blocks, H.top, H.base, hio, hσ]
      | custom f =>
        simp only [intercept, repeatCont_ran]
        simp [Sup.times, Sup.blocks, H.top, H.base, hσ]
    · rw [if_neg (by simpa using e), if_neg e]; rfl

/-! ### Histories -/

structure Inv (ops : List Op) (σ : State) : Prop where
  idle : σ.intercepting = false
  len : σ.subs.length = (subscribed ops).length
  bases : ∀ i b f, (subscribed ops)[i]? = some (b, f) → ∃ s, σ.subs[i]? = some s ∧ s.foreign = f ∧ s.mine.base = b ∧ s.table.base = b ∧
    s.mine.top = lastTag ops i ∧ (if f then s.table = .plain b else s.table = s.mine)
  flying : ∀ i h m, (i, h, m) ∈ σ.inflight → ∃ b, (subscribed ops)[i]? = some (b, true) ∧ h = .plain b

theorem lastTag_aux (ops : List Op) (i : Nat) : (ops.foldl (tagStep i) (0, none)).1 = (subscribed ops).length := by
  suffices ∀ acc : Nat × Option Nat, (ops.foldl (tagStep i) acc).1 = acc.1 + (subscribed ops).length by simpa using this (0, none)
  induction ops with
  | nil => intro acc; simp [subscribed]
  | cons o ops ih =>
    intro acc
    rw [List.foldl_cons, ih]
    cases o with
    | subscribe b f => simp [subscribed, tagStep]; omega
    | tag j t => simp only [subscribed, List.filterMap_cons, tagStep]; split <;> rfl
    | deliver => simp [subscribed, tagStep]
    | onCall => simp [subscribed, tagStep]

theorem lastTag_snoc (ops : List Op) (o : Op) (i : Nat) : lastTag (ops ++ [o]) i = (match o with
    | .tag j t => if j = i ∧ i < (subscribed ops).length then some t else lastTag ops i
    | _ => lastTag ops i) := by
  have := lastTag_aux ops i
  unfold lastTag
  rw [List.foldl_append, List.foldl_cons, List.foldl_nil]
  cases o <;> simp only [tagStep]
  rw [this]
  split <;> rfl

theorem subscribed_snoc (ops : List Op) (o : Op) : subscribed (ops ++ [o]) = subscribed ops ++ (match o with | .subscribe b f => [(b, f)] | _ => []) := by
  cases o <;> simp [subscribed]

theorem lastTag_new (ops : List Op) (i : Nat) (h : (subscribed ops).length ≤ i) : lastTag ops i = none := by
  suffices ∀ (n : Nat) (ops : List Op), ops.length = n → (subscribed ops).length ≤ i → lastTag ops i = none from this _ ops rfl h
  intro n
  induction n with
  | zero => intro ops h0 _; rw [List.length_eq_zero_iff.1 h0]; rfl
  | succ n ih =>
    intro ops hn hle
    have hne : ops ≠ [] := fun e => by subst e; simp at hn
    rw [← List.dropLast_concat_getLast hne] at hle ⊢
    rw [subscribed_snoc] at hle
    have hle' : (subscribed ops.dropLast).length ≤ i := by simp at hle; omega
    rw [lastTag_snoc]
    have := ih ops.dropLast (by simp [hn]) hle'
    split
    · rw [if_neg (by omega)]; exact this
    · exact this

/-- what a step adds to the log, oldest first -/
def added (sup : Sup) (ops : List Op) (σ : State) : Op → List Event
  | .deliver i m => match (subscribed ops)[i]? with
    | some (b, false) => expected sup b (lastTag ops i) m
    | _ => []
  | .onCall => match σ.inflight with
    | (i, _, m) :: _ => match (subscribed ops)[i]? with
      | some (b, _) => expected sup b none m
      | none => []
    | [] => []
  | _ => []

theorem inv_step (sup : Sup) (ops : List Op) (σ : State) (h : Inv ops σ) (o : Op) :
    Inv (ops ++ [o]) (step sup σ o) ∧ (step sup σ o).log = (added sup ops σ o).reverse ++ σ.log := by
  cases o with
  | subscribe b f =>
    refine ⟨⟨h.idle, ?_, ?_, ?_⟩, rfl⟩
    · rw [subscribed_snoc]; simp [step, h.len]
    · intro i c g hi
      rw [subscribed_snoc] at hi
      rw [lastTag_snoc]
      simp only [step]
      by_cases hlt : i < (subscribed ops).length
      · rw [List.getElem?_append_left hlt] at hi
        rw [List.getElem?_append_left (by rw [h.len]; exact hlt)]
        exact h.bases i c g hi
      · have hl := (List.getElem?_eq_some_iff.1 hi).1
        simp at hl
        have e : i = (subscribed ops).length := by omega
        subst e
        simp at hi
        obtain ⟨rfl, rfl⟩ := hi
        rw [lastTag_new ops _ (Nat.le_refl _), ← h.len]
        refine ⟨_, by simp; rfl, rfl, rfl, rfl, rfl, ?_⟩
        split <;> rfl
    · intro i x m hm
      obtain ⟨c, hc, e⟩ := h.flying i x m hm
      exact ⟨c, by rw [subscribed_snoc, List.getElem?_append_left (List.getElem?_eq_some_iff.1 hc).1]; exact hc, e⟩
  | tag i t =>
    have hsub : subscribed (ops ++ [.tag i t]) = subscribed ops := by rw [subscribed_snoc]; simp
    simp only [step]
    cases hs : σ.subs[i]? with
    | none =>
      refine ⟨⟨h.idle, by rw [hsub]; exact h.len, ?_, fun j x m hm => by rw [hsub]; exact h.flying j x m hm⟩, rfl⟩
      intro j c g hj
      rw [hsub] at hj
      obtain ⟨s, h1, h2, h3, h4, h5, h6⟩ := h.bases j c g hj
      have hij : ¬ (i = j) := by rintro rfl; rw [hs] at h1; cases h1
      exact ⟨s, h1, h2, h3, h4, by rw [lastTag_snoc]; simp [hij]; exact h5, h6⟩
    | some s0 =>
      refine ⟨⟨h.idle, by rw [hsub]; simp [h.len], ?_, fun j x m hm => by rw [hsub]; exact h.flying j x m hm⟩, rfl⟩
      intro j c g hj
      rw [hsub] at hj
      obtain ⟨s, h1, h2, h3, h4, h5, h6⟩ := h.bases j c g hj
      rw [lastTag_snoc]
      by_cases hij : i = j
      · subst hij
        rw [hs] at h1; injection h1 with h1; subst h1
        have hl := (List.getElem?_eq_some_iff.1 hs).1
        have hl' : i < (subscribed ops).length := by rw [← h.len]; exact hl
        refine ⟨_, by simp [hl]; rfl, ?_⟩
        simp only [true_and, if_pos hl']
        subst h2
        cases hf : s0.foreign
        · simp [hf, upgrade_base, upgrade_top, h3]
        · rw [hf] at h6
          simp at h6
          simp [hf, upgrade_base, upgrade_top, h3, h4, h6]
          simp [H.base]
      · refine ⟨s, by simp [hij, h1], h2, h3, h4, ?_, h6⟩
        simp [hij]; exact h5
  | deliver i m =>
    have hsub : subscribed (ops ++ [.deliver i m]) = subscribed ops := by rw [subscribed_snoc]; simp
    have hb : ∀ σ' : State, σ'.intercepting = false → σ'.subs = σ.subs → (∀ j x m, (j, x, m) ∈ σ'.inflight → ∃ b, (subscribed ops)[j]? = some (b, true) ∧ x = .plain b) →
        Inv (ops ++ [.deliver i m]) σ' := by
      intro σ' a b c
      refine ⟨a, by rw [b, hsub]; exact h.len, ?_, by rw [hsub]; exact c⟩
      rw [b, hsub]
      intro j c g hj
      rw [lastTag_snoc]
      exact h.bases j c g hj
    simp only [step, added]
    cases hs : (subscribed ops)[i]? with
    | none =>
      have : σ.subs[i]? = none := by
        rw [List.getElem?_eq_none_iff] at hs ⊢; rw [h.len]; exact hs
      rw [this]
      exact ⟨hb σ h.idle rfl h.flying, rfl⟩
    | some p =>
      obtain ⟨b, f⟩ := p
      obtain ⟨s, h1, h2, h3, h4, h5, h6⟩ := h.bases i b f hs
      rw [h1]
      dsimp only
      subst h2
      cases hf : s.foreign
      · rw [hf] at h6
        have h6 : s.table = s.mine := by simpa using h6
        have hc := call_spec sup σ h.idle s.table m
        rw [if_neg (by simp)]
        refine ⟨hb _ (by rw [hc]; exact h.idle) (by rw [hc]) (by rw [hc]; exact h.flying), ?_⟩
        rw [hc, h4, h6, h5]
      · rw [if_pos rfl]
        refine ⟨hb _ h.idle rfl ?_, rfl⟩
        intro j x m' hm
        rcases List.mem_append.1 hm with hm | hm
        · exact h.flying j x m' hm
        · simp at hm
          obtain ⟨rfl, rfl, rfl⟩ := hm
          rw [hf] at h6 hs
          exact ⟨b, hs, by simpa using h6⟩
  | onCall =>
    have hsub : subscribed (ops ++ [.onCall]) = subscribed ops := by rw [subscribed_snoc]; simp
    have hb : ∀ σ' : State, σ'.intercepting = false → σ'.subs = σ.subs → (∀ j x m, (j, x, m) ∈ σ'.inflight → ∃ b, (subscribed ops)[j]? = some (b, true) ∧ x = .plain b) →
        Inv (ops ++ [.onCall]) σ' := by
      intro σ' a b c
      refine ⟨a, by rw [b, hsub]; exact h.len, ?_, by rw [hsub]; exact c⟩
      rw [b, hsub]
      intro j c g hj
      rw [lastTag_snoc]
      exact h.bases j c g hj
    simp only [step, added]
    cases hq : σ.inflight with
    | nil => exact ⟨hb σ h.idle rfl h.flying, rfl⟩
    | cons q rest =>
      obtain ⟨i, x, m⟩ := q
      obtain ⟨b, hs, rfl⟩ := h.flying i x m (by rw [hq]; simp)
      obtain ⟨s, h1, h2, h3, h4, h5, h6⟩ := h.bases i b true hs
      have hfl : ∀ j x m, (j, x, m) ∈ rest → ∃ b, (subscribed ops)[j]? = some (b, true) ∧ x = .plain b :=
        fun j x m hm => h.flying j x m (by rw [hq]; simp [hm])
      dsimp only
      rw [h1, hs]
      dsimp only
      rw [if_pos (by simp [H.same, h3, H.base])]
      have hc := call_spec sup { σ with inflight := rest } h.idle (.plain b) m
      refine ⟨hb _ (by rw [hc]; exact h.idle) (by rw [hc]) (by rw [hc]; exact hfl), ?_⟩
      rw [hc]; rfl

theorem inv_run (sup : Sup) (ops : List Op) : Inv ops (run sup .init ops) := by
  suffices ∀ (n : Nat) (ops : List Op), ops.length = n → Inv ops (run sup .init ops) from this _ ops rfl
  intro n
  induction n with
  | zero => intro ops h0; rw [List.length_eq_zero_iff.1 h0]; exact ⟨rfl, rfl, by simp [subscribed], by simp [run, State.init]⟩
  | succ n ih =>
    intro ops hn
    have hne : ops ≠ [] := fun e => by subst e; simp at hn
    rw [← List.dropLast_concat_getLast hne]
    have := (inv_step sup _ _ (ih ops.dropLast (by simp [hn])) (ops.getLast hne)).1
    unfold run at this ⊢
    rw [List.foldl_append]
    exact this

/-- **C75** A message for an address of the own locality: whatever tags the subscription has been given, the handler runs exactly as often as an
untagged one would, once if the type of the message is its own and not at all otherwise, if the supervisor has one of the `intercept` functions of the
library; one of the user decides how often. If there is a tag, `intercept` is called once before, with the tag said last. The handler runs as a blocking
one exactly if its last tag is `io` and the supervisor is one of the thread backend. -/
theorem C75_own_address (sup : Sup) (ops : List Op) (i : Nat) (b : Base) (h : (subscribed ops)[i]? = some (b, false)) (m : Msg) :
    (run sup .init (ops ++ [.deliver i m])).log = (expected sup b (lastTag ops i) m).reverse ++ (run sup .init ops).log := by
  have := (inv_step sup ops _ (inv_run sup ops) (.deliver i m)).2
  simp only [added, h] at this
  unfold run at this ⊢
  rw [List.foldl_append]
  exact this

/-- **C75** The flag is off whenever no handler is running. -/
theorem C75_flag_off (sup : Sup) (ops : List Op) : (run sup .init ops).intercepting = false := (inv_run sup ops).idle

/-- **C75, false for foreign addresses.** Tags have no effect on messages for addresses of other localities: the handler runs once, as if it had
never been tagged, and `intercept` is not called. -/
theorem C75_foreign_untagged (sup : Sup) (ops : List Op) (i : Nat) (x : H) (m : Msg) (rest : List (Nat × H × Msg))
    (h : (run sup .init ops).inflight = (i, x, m) :: rest) : ∃ b, (subscribed ops)[i]? = some (b, true) ∧
    (run sup .init (ops ++ [.onCall])).log = (if m.ty = b.ty then [.ran b.body m.id false] else []) ++ (run sup .init ops).log := by
  have iv := inv_run sup ops
  obtain ⟨b, hb, rfl⟩ := iv.flying i x m (by rw [h]; simp)
  refine ⟨b, hb, ?_⟩
  have := (inv_step sup ops _ iv .onCall).2
  simp only [added, h, hb] at this
  have e : (run sup .init (ops ++ [.onCall])).log = (step sup (run sup .init ops) .onCall).log := by
    unfold run; rw [List.foldl_append]; rfl
  rw [e, this]
  unfold expected
  split
  · cases sup <;> simp [Sup.times, Sup.blocks]
  · rfl

/-- **C75, false for foreign addresses**, an instance: a handler that has been tagged as blocking runs without the flag, so the timers of its actors
are not updated while it blocks. -/
theorem C75_foreign_counterexample (b : Base) (m : Nat) :
    (run .thread .init [.subscribe b true, .tag 0 io, .deliver 0 ⟨m, b.ty⟩, .onCall]).log = [.ran b.body m false] ∧
    (run .thread .init [.subscribe b false, .tag 0 io, .deliver 0 ⟨m, b.ty⟩]).log = [.checked, .ran b.body m true, .checked, .told io m] := by
  constructor
  · simp [run, step, State.init, H.upgrade, H.same, H.base, call, noCheck]
  · simp [run, step, State.init, H.upgrade, call, noCheck, H.select, intercept]

/-- **C75** A tagged handler is equal to the original one, so it is found when it is unsubscribed, and it takes the same messages. Tagging twice with
one tag is tagging once. -/
theorem C75_equal (h : H) (t : Nat) : (h.upgrade t).same h = true ∧ (h.upgrade t).messageType = h.messageType ∧
    (∀ m, (h.upgrade t).select m = h.select m) ∧ (h.upgrade t).upgrade t = h.upgrade t := by
  refine ⟨by simp [H.same, upgrade_base], ?_, fun m => by rw [select_base, select_base, upgrade_base], ?_⟩
  · cases h with
    | plain b => rfl
    | tagged h' t' => by_cases e : t = t' <;> simp [H.upgrade, e, H.messageType]
  · cases h with
    | plain b => simp [H.upgrade]
    | tagged h' t' => by_cases e : t = t' <;> simp [H.upgrade, e]

/-- a subscription at the own locality and one elsewhere; both are tagged -/
def exOps : List Op :=
  [.subscribe ⟨1, 5, 7, 9⟩ false, .subscribe ⟨2, 5, 8, 10⟩ true, .tag 0 3, .tag 1 io, .deliver 1 ⟨50, 5⟩, .tag 0 io, .deliver 0 ⟨51, 5⟩, .deliver 0 ⟨52, 6⟩]

example : lastTag exOps 0 = some io ∧ (subscribed exOps)[0]? = some (⟨1, 5, 7, 9⟩, false) := ⟨rfl, rfl⟩
example : (run .thread .init exOps).inflight = [(1, .plain ⟨2, 5, 8, 10⟩, ⟨50, 5⟩)] := rfl
example : (run .thread .init exOps).log = [.checked, .ran 9 51 true, .checked, .told io 51] := rfl
example : (run (.custom (fun _ => 2)) .init exOps).log = [.ran 9 51 false, .ran 9 51 false, .told io 51] := rfl

end Verif.Intercept
