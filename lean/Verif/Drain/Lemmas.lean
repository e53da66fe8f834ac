import Verif.Drain.Spec

/-! # Lemmas -/

namespace Verif.Drain

theorem first_mem {l : Nat} {q : List (Nat × Msg)} {e : Msg} (h : first l q = some e) : (l, e) ∈ q := by
  simp only [first, Option.map_eq_some_iff] at h
  obtain ⟨⟨a, b⟩, h1, h2⟩ := h
  have k1 := List.mem_of_find?_eq_some h1
  have k2 := List.find?_some h1
  simp only [decide_eq_true_eq] at k2
  simp only at h2
  subst k2; subst h2
  exact k1

theorem first_none {l : Nat} {q : List (Nat × Msg)} (h : first l q = none) : ∀ e ∈ q, e.1 ≠ l := by
  simp only [first, Option.map_eq_none_iff, List.find?_eq_none, decide_eq_true_eq] at h
  exact h

theorem cut {l : Nat} {q : List (Nat × Msg)} {e : Msg} (h : (l, e) ∈ q) (m : Nat) :
    q.countP (isOf m) = (q.erase (l, e)).countP (isOf m) + if e.of = m then 1 else 0 := by
  rw [(List.perm_cons_erase h).countP_eq, List.countP_cons]
  simp only [isOf, decide_eq_true_eq]

theorem put_count (q : List (Nat × Msg)) (l : Nat) (e : Msg) (m : Nat) :
    (q ++ [(l, e)]).countP (isOf m) = q.countP (isOf m) + if e.of = m then 1 else 0 := by
  rw [List.countP_append, List.countP_singleton]
  simp only [isOf, decide_eq_true_eq]

theorem cons_count (q : List (Nat × Msg)) (l : Nat) (e : Msg) (m : Nat) :
    ((l, e) :: q).countP (isOf m) = q.countP (isOf m) + if e.of = m then 1 else 0 := by
  rw [List.countP_cons]
  simp only [isOf, decide_eq_true_eq]

theorem pos {l : Nat} {q : List (Nat × Msg)} {e : Msg} (h : (l, e) ∈ q) : q.countP (isOf e.of) ≠ 0 := by
  rw [cut h]; simp

theorem refs_zero {σ : State} {m : Nat} : refs σ m = 0 ↔ Unheld σ m := by
  simp only [refs, Unheld, Nat.add_eq_zero_iff, List.count_eq_zero, List.countP_eq_zero, isOf, decide_eq_true_eq, and_assoc]

/-- what holds always, but for the messages that nobody refers to -/
structure Core (σ : State) : Prop where
  lt : ∀ m, σ.next ≤ m → refs σ m = 0
  fresh : ∀ m, σ.next ≤ m → (∀ r, .sent m r ∉ σ.log) ∧ .hop m ∉ σ.log ∧ (∀ r, .freed m r ∉ σ.log)
  fr : ∀ m r, .freed m r ∈ σ.log → refs σ m = 0
  f1 : ∀ m, σ.log.countP (isFreed m) ≤ 1
  h1 : ∀ m, σ.log.count (.hop m) ≤ 1
  rh : ∀ m, σ.route m = true → m < σ.next → .hop m ∉ σ.log ∧ .sent m true ∈ σ.log
  hs : ∀ m, .hop m ∈ σ.log → .sent m true ∈ σ.log
  rt : ∀ m, .sent m true ∈ σ.log → σ.route m = true ∨ .hop m ∈ σ.log
  fb : ∀ m, .freed m false ∈ σ.log → .sent m true ∈ σ.log → .hop m ∈ σ.log
  se : ∀ m, m < σ.next → ∃ r, .sent m r ∈ σ.log

structure Inv (σ : State) : Prop where
  core : Core σ
  fz : ∀ m, m < σ.next → refs σ m = 0 → ∃ r, .freed m r ∈ σ.log

/-- a reference to `m` is in somebody's hands -/
structure Pre (σ : State) (m : Nat) : Prop where
  core : Core σ
  fz : ∀ x, x < σ.next → x ≠ m → refs σ x = 0 → ∃ r, .freed x r ∈ σ.log
  lt : m < σ.next
  nf : ∀ r, .freed m r ∉ σ.log

theorem init_inv : Inv State.init where
  core := by
    constructor <;> simp [State.init, refs]
  fz := by simp [State.init]

theorem Core.congr {σ σ' : State} (h : Core σ) (hn : σ'.next = σ.next) (hr : σ'.route = σ.route) (hl : σ'.log = σ.log)
    (hz : ∀ m, refs σ m = 0 → refs σ' m = 0) : Core σ' where
  lt m hm := hz _ (h.lt m (hn ▸ hm))
  fresh m hm := hl ▸ h.fresh m (hn ▸ hm)
  fr m r hm := hz _ (h.fr m r (hl ▸ hm))
  f1 := hl ▸ h.f1
  h1 := hl ▸ h.h1
  rh := by rw [hl, hr, hn]; exact h.rh
  hs := hl ▸ h.hs
  rt := by rw [hl, hr]; exact h.rt
  fb := hl ▸ h.fb
  se := by rw [hl, hn]; exact h.se

theorem Inv.congr {σ σ' : State} (h : Inv σ) (hn : σ'.next = σ.next) (hr : σ'.route = σ.route) (hl : σ'.log = σ.log)
    (hz : ∀ m, refs σ' m = 0 ↔ refs σ m = 0) : Inv σ' where
  core := h.core.congr hn hr hl (fun m => (hz m).2)
  fz m hm hz' := by rw [hl]; exact h.fz m (hn ▸ hm) ((hz m).1 hz')

/-- a reference to `m` is taken out of the state -/
theorem Inv.pre {σ σ' : State} {m : Nat} (h : Inv σ) (hn : σ'.next = σ.next) (hr : σ'.route = σ.route) (hl : σ'.log = σ.log)
    (hc : ∀ x, refs σ x = refs σ' x + if m = x then 1 else 0) : Pre σ' m where
  core := h.core.congr hn hr hl (fun x hx => by have := hc x; omega)
  fz x hx hne hz := by
    rw [hl]
    refine h.fz x (hn ▸ hx) ?_
    rw [hc x, hz, if_neg (Ne.symm hne)]
  lt := by
    rw [hn]
    rcases Nat.lt_or_ge m σ.next with h1 | h1
    · exact h1
    · have := h.core.lt m h1
      rw [hc m, if_pos rfl] at this; omega
  nf r hf := by
    rw [hl] at hf
    have := h.core.fr m r hf
    rw [hc m, if_pos rfl] at this; omega

theorem not_freed {log : List Ev} {m : Nat} (h : ∀ r, .freed m r ∉ log) : log.countP (isFreed m) = 0 := by
  rw [List.countP_eq_zero]
  intro e he hf
  cases e with
  | freed x r =>
    simp only [isFreed, decide_eq_true_eq] at hf
    subst hf; exact h r he
  | _ => simp [isFreed] at hf

theorem release_inv {σ : State} {m : Nat} (h : Pre σ m) : Inv (release m σ) := by
  have c := h.core
  simp only [release]
  split
  · rename_i hz
    constructor
    · constructor
      · exact c.lt
      · intro x hx
        have hx' : x ≠ m := by intro e; subst e; have := h.lt; simp only at hx; omega
        have := c.fresh x hx
        simp only [List.mem_cons, reduceCtorEq, false_or, Ev.freed.injEq, not_or]
        exact ⟨this.1, this.2.1, fun r => ⟨fun e => hx' e.1, this.2.2 r⟩⟩
      · intro x r hx
        simp only [List.mem_cons, Ev.freed.injEq] at hx
        rcases hx with hx | hx
        · rw [hx.1]; exact hz
        · exact c.fr x r hx
      · intro x
        simp only [List.countP_cons, isFreed, decide_eq_true_eq]
        by_cases e : m = x
        · subst e; rw [not_freed h.nf]; simp
        · rw [if_neg e]; exact c.f1 x
      · intro x
        simp only [List.count_cons, beq_iff_eq, reduceCtorEq, if_false]
        exact c.h1 x
      · intro x hr hx
        have := c.rh x hr hx
        simp only [List.mem_cons, reduceCtorEq, false_or]; exact this
      · intro x hx
        simp only [List.mem_cons, reduceCtorEq, false_or] at hx ⊢; exact c.hs x hx
      · intro x hx
        simp only [List.mem_cons, reduceCtorEq, false_or] at hx ⊢; exact c.rt x hx
      · intro x hx hs
        simp only [List.mem_cons, reduceCtorEq, false_or, Ev.freed.injEq] at hx hs ⊢
        rcases hx with hx | hx
        · rcases c.rt x hs with hr | hr
          · rw [hx.1, ← hx.2] at hr; simp at hr
          · exact hr
        · exact c.fb x hx hs
      · intro x hx
        obtain ⟨r, hr⟩ := c.se x hx
        exact ⟨r, List.mem_cons_of_mem _ hr⟩
    · intro x hx hz'
      by_cases e : x = m
      · subst e; exact ⟨σ.route x, by simp⟩
      · obtain ⟨r, hr⟩ := h.fz x hx e hz'
        exact ⟨r, List.mem_cons_of_mem _ hr⟩
  · rename_i hz
    refine ⟨c, fun x hx hz' => ?_⟩
    by_cases e : x = m
    · subst e; exact absurd hz' hz
    · exact h.fz x hx e hz'

/-- the message goes on -/
theorem moved_inv {σ σ' : State} {m : Nat} (h : Pre σ m) (hr : σ.route m = true) (hn : σ'.next = σ.next) (hr' : σ'.route = upd σ.route m false)
    (hl : σ'.log = .hop m :: σ.log) (hc : ∀ x, refs σ' x = refs σ x + if m = x then 1 else 0) : Inv σ' := by
  have c := h.core
  have hm := c.rh m hr h.lt
  constructor
  · constructor
    · intro x hx
      rw [hn] at hx
      have hx' : m ≠ x := by intro e; subst e; have := h.lt; omega
      rw [hc x, if_neg hx', c.lt x hx]
    · intro x hx
      rw [hn] at hx
      have hx' : x ≠ m := by intro e; subst e; have := h.lt; omega
      have := c.fresh x hx
      rw [hl]
      simp only [List.mem_cons, reduceCtorEq, false_or, Ev.hop.injEq, not_or]
      exact ⟨this.1, ⟨hx', this.2.1⟩, this.2.2⟩
    · intro x r hx
      rw [hl] at hx
      simp only [List.mem_cons, reduceCtorEq, false_or] at hx
      have hx' : m ≠ x := by intro e; subst e; exact h.nf r hx
      rw [hc x, if_neg hx', c.fr x r hx]
    · intro x
      rw [hl, List.countP_cons]
      simp only [isFreed, Bool.false_eq_true, if_false]
      exact c.f1 x
    · intro x
      rw [hl, List.count_cons]
      by_cases e : m = x
      · subst e
        rw [List.count_eq_zero.2 hm.1]; simp
      · have : (Ev.hop m == Ev.hop x) = false := by simp [e]
        rw [this]; exact c.h1 x
    · intro x hx hlt
      rw [hr'] at hx
      rw [hn] at hlt
      simp only [upd] at hx
      split at hx
      · simp at hx
      · rename_i e
        have := c.rh x hx hlt
        rw [hl]
        simp only [List.mem_cons, reduceCtorEq, false_or, Ev.hop.injEq, not_or]
        exact ⟨⟨e, this.1⟩, this.2⟩
    · intro x hx
      rw [hl] at hx ⊢
      simp only [List.mem_cons, reduceCtorEq, false_or, Ev.hop.injEq] at hx ⊢
      rcases hx with hx | hx
      · subst hx; exact hm.2
      · exact c.hs x hx
    · intro x hx
      rw [hl] at hx ⊢
      rw [hr']
      simp only [List.mem_cons, reduceCtorEq, false_or, Ev.hop.injEq, upd] at hx ⊢
      by_cases e : x = m
      · exact .inr (.inl e)
      · rw [if_neg e]
        rcases c.rt x hx with k | k
        · exact .inl k
        · exact .inr (.inr k)
    · intro x hx hs
      rw [hl] at hx hs ⊢
      simp only [List.mem_cons, reduceCtorEq, false_or, Ev.hop.injEq] at hx hs ⊢
      exact .inr (c.fb x hx hs)
    · intro x hx
      rw [hn] at hx
      obtain ⟨r, hr⟩ := c.se x hx
      exact ⟨r, by rw [hl]; exact List.mem_cons_of_mem _ hr⟩
  · intro x hx hz
    rw [hn] at hx
    rw [hc x] at hz
    have e : x ≠ m := by intro e; subst e; simp at hz
    obtain ⟨r, hr⟩ := h.fz x hx e (by omega)
    exact ⟨r, by rw [hl]; exact List.mem_cons_of_mem _ hr⟩

theorem hop_inv {c : Cfg} {σ σ' : State} {m s : Nat} (h : Pre σ m) (hr : σ.route m = true) (he : hop c m s σ = .ok σ') : Inv σ' := by
  simp only [hop] at he
  split at he
  · simp at he
  · simp at he
  · split at he
    · simp at he
    · split at he
      · simp at he
      · simp only [Except.ok.injEq] at he
        subst he
        refine moved_inv h hr rfl rfl rfl (fun x => ?_)
        simp only [refs, put_count, Msg.of]
        grind

theorem drop_inv {c : Cfg} {σ σ' : State} {e : Msg} (h : Pre σ e.of) (he : drop c e σ = .ok σ') : Inv σ' := by
  cases e with
  | plain m =>
    simp only [drop, Except.ok.injEq] at he
    subst he; exact release_inv h
  | call m s =>
    simp only [drop] at he
    split at he
    · rename_i hr; exact hop_inv h hr.1 he
    · simp only [Except.ok.injEq] at he
      subst he; exact release_inv h

theorem pre_inb {σ : State} {l : Nat} {e : Msg} (h : Inv σ) (hf : first l σ.inb = some e) : Pre { σ with inb := σ.inb.erase (l, e) } e.of :=
  h.pre rfl rfl rfl (fun x => by simp only [refs]; rw [cut (first_mem hf) x]; omega)

theorem pre_queue {σ : State} {l : Nat} {e : Msg} (h : Inv σ) (hf : first l σ.queue = some e) : Pre { σ with queue := σ.queue.erase (l, e) } e.of :=
  h.pre rfl rfl rfl (fun x => by simp only [refs]; rw [cut (first_mem hf) x]; omega)

theorem pre_cur {σ : State} {l : Nat} {e : Msg} (h : Inv σ) (hf : first l σ.cur = some e) : Pre { σ with cur := σ.cur.erase (l, e) } e.of :=
  h.pre rfl rfl rfl (fun x => by simp only [refs]; rw [cut (first_mem hf) x]; omega)

theorem cur_ne {σ : State} {l : Nat} {e : Msg} (hf : first l σ.cur = some e) : refs σ e.of ≠ 0 := by
  have := pos (first_mem hf)
  simp only [refs]; omega

theorem send_inv {σ : State} {b : Nat} {r : Bool} (h : Inv σ) :
    Inv { σ with next := σ.next + 1, route := upd σ.route σ.next r, inb := σ.inb ++ [(b, .plain σ.next)], log := .sent σ.next r :: σ.log } := by
  have c := h.core
  have fr := c.fresh σ.next (Nat.le_refl _)
  have hrefs : ∀ x, refs { σ with next := σ.next + 1, route := upd σ.route σ.next r, inb := σ.inb ++ [(b, .plain σ.next)], log := .sent σ.next r :: σ.log } x =
      refs σ x + if σ.next = x then 1 else 0 := by
    intro x; simp only [refs, put_count, Msg.of]; grind
  constructor
  · constructor
    · intro x hx
      simp only at hx
      rw [hrefs x, if_neg (by omega), c.lt x (by omega)]
    · intro x hx
      simp only at hx
      have := c.fresh x (by omega)
      simp only [List.mem_cons, reduceCtorEq, false_or, Ev.sent.injEq, not_or]
      exact ⟨fun q => ⟨fun e => by omega, this.1 q⟩, this.2⟩
    · intro x q hx
      simp only [List.mem_cons, reduceCtorEq, false_or] at hx
      have hx' : σ.next ≠ x := by intro e; subst e; exact fr.2.2 q hx
      rw [hrefs x, if_neg hx', c.fr x q hx]
    · intro x
      simp only [List.countP_cons, isFreed, Bool.false_eq_true, if_false]
      exact c.f1 x
    · intro x
      simp only [List.count_cons, beq_iff_eq, reduceCtorEq, if_false]
      exact c.h1 x
    · intro x hx hlt
      simp only [upd] at hx hlt
      simp only [List.mem_cons, reduceCtorEq, false_or, Ev.sent.injEq]
      split at hx
      · rename_i e
        subst e; subst hx
        exact ⟨fr.2.1, .inl ⟨rfl, rfl⟩⟩
      · rename_i e
        have := c.rh x hx (by omega)
        exact ⟨this.1, .inr this.2⟩
    · intro x hx
      simp only [List.mem_cons, reduceCtorEq, false_or] at hx ⊢
      exact .inr (c.hs x hx)
    · intro x hx
      simp only [List.mem_cons, reduceCtorEq, false_or, Ev.sent.injEq, upd] at hx ⊢
      by_cases e : x = σ.next
      · subst e
        rcases hx with hx | hx
        · left; rw [if_pos rfl]; exact hx.2.symm
        · exact absurd hx (fr.1 true)
      · rw [if_neg e]
        rcases hx with hx | hx
        · exact absurd hx.1 e
        · exact c.rt x hx
    · intro x hx hs
      simp only [List.mem_cons, reduceCtorEq, false_or, Ev.sent.injEq] at hx hs ⊢
      have hx' : x ≠ σ.next := by intro e; subst e; exact fr.2.2 false hx
      rcases hs with hs | hs
      · exact absurd hs.1 hx'
      · exact c.fb x hx hs
    · intro x hx
      simp only at hx
      by_cases e : x = σ.next
      · subst e; exact ⟨r, by simp⟩
      · obtain ⟨q, hq⟩ := c.se x (by omega)
        exact ⟨q, List.mem_cons_of_mem _ hq⟩
  · intro x hx hz
    simp only at hx
    rw [hrefs x] at hz
    have e : σ.next ≠ x := by intro e; subst e; simp at hz
    obtain ⟨q, hq⟩ := h.fz x (by omega) (by omega)
    exact ⟨q, List.mem_cons_of_mem _ hq⟩

theorem step_inv {c : Cfg} {σ σ' : State} {op : Op} (h : Inv σ) (he : step c σ op = .ok σ') : Inv σ' := by
  cases op with
  | send s r =>
    simp only [step] at he
    split at he
    · simp only [Except.ok.injEq] at he; subst he; exact send_inv h
    · simp at he
  | move l =>
    simp only [step] at he
    split at he
    · rename_i e hf
      split at he
      · simp only [Except.ok.injEq] at he; subst he
        refine h.congr rfl rfl rfl (fun x => ?_)
        have := cut (first_mem hf) x
        simp only [refs, put_count]; omega
      · simp at he
    · simp at he
  | take l =>
    simp only [step] at he
    split at he
    · rename_i e hf
      split at he
      · simp only [Except.ok.injEq] at he; subst he
        refine h.congr rfl rfl rfl (fun x => ?_)
        have := cut (first_mem hf) x
        simp only [refs, cons_count]; omega
      · simp at he
    · simp at he
  | wrap l s =>
    simp only [step] at he
    split at he
    · rename_i m hf
      split at he
      · simp only [Except.ok.injEq] at he; subst he
        refine h.congr rfl rfl rfl (fun x => ?_)
        have := cur_ne hf
        simp only [refs, put_count, Msg.of] at this ⊢
        grind
      · simp at he
    · simp at he
  | keep l =>
    simp only [step] at he
    split at he
    · rename_i e hf
      simp only [Except.ok.injEq] at he; subst he
      refine h.congr rfl rfl rfl (fun x => ?_)
      have := cur_ne hf
      simp only [refs, List.count_cons, beq_iff_eq] at this ⊢
      split
      · rename_i e; rw [e] at this; omega
      · omega
    · simp at he
  | forget m =>
    simp only [step] at he
    split at he
    · rename_i hm
      simp only [Except.ok.injEq] at he; subst he
      refine release_inv (h.pre rfl rfl rfl (fun x => ?_))
      simp only [refs]
      rw [(List.perm_cons_erase hm).count_eq x, List.count_cons]
      simp only [beq_iff_eq]; omega
    · simp at he
  | done l =>
    simp only [step] at he
    split at he
    · rename_i e hf
      have hp := pre_cur h hf
      cases e with
      | plain m =>
        simp only at he
        split at he
        · rename_i hr
          simp only [Except.ok.injEq] at he; subst he
          refine moved_inv hp hr.1 rfl rfl rfl (fun x => ?_)
          simp only [refs, put_count, Msg.of]; omega
        · simp only [Except.ok.injEq] at he; subst he
          exact release_inv hp
      | call m s => exact drop_inv hp he
    · simp at he
  | destroy s =>
    simp only [step] at he
    split at he
    · simp only [Except.ok.injEq] at he; subst he
      exact h.congr rfl rfl rfl (fun _ => Iff.rfl)
    · simp at he
  | pop s =>
    simp only [step] at he
    split at he
    · split at he
      · rename_i e hf; exact drop_inv (pre_inb h hf) he
      · split at he
        · rename_i e hf; exact drop_inv (pre_queue h hf) he
        · simp at he
    · simp at he
  | finish s =>
    simp only [step] at he
    split at he
    · simp only [Except.ok.injEq] at he; subst he
      exact h.congr rfl rfl rfl (fun _ => Iff.rfl)
    · simp at he
  | close r =>
    simp only [step, Except.ok.injEq] at he; subst he
    exact h.congr rfl rfl rfl (fun _ => Iff.rfl)
  | drain r =>
    simp only [step] at he
    split at he
    · split at he
      · rename_i e hf; exact drop_inv (pre_inb h hf) he
      · simp at he
    · simp at he

theorem run_inv {c : Cfg} : ∀ (ops : List Op) (σ σ' : State), Inv σ → run c σ ops = .ok σ' → Inv σ' := by
  intro ops
  induction ops with
  | nil => intro σ σ' h he; simp only [run, Except.ok.injEq] at he; subst he; exact h
  | cons op ops ih =>
    intro σ σ' h he
    simp only [run] at he
    split at he
    · simp at he
    · rename_i σ1 h1; exact ih _ _ (step_inv h h1) he

end Verif.Drain
