import Verif.Net.Origin

/-!
# Entries of `lifetime_plugin_t::points` and the subscriptions they stand for
-/

namespace Verif.Net
open Verif

/-- the unsubscription of the handler from the address has been confirmed -/
def Undone (log : List Ev) (h : Handler) (addr : Nat) : Prop := ∃ l m, .took l m ∈ log ∧ m.body = .unsub h addr

theorem Undone.mono {log log' : List Ev} {h : Handler} {addr : Nat} (hu : Undone log h addr) (hl : ∀ e ∈ log, e ∈ log') : Undone log' h addr := by
  obtain ⟨l, m, h1, h2⟩ := hu
  exact ⟨l, m, hl _ h1, h2⟩

/-- every entry stands for a subscription that exists or that was undone -/
def InvL (s : State) : Prop := ∀ e ∈ s.listed, (s.points.find e.1).isSome = true ∨ Undone s.log e.1.1 e.1.2

/-- `s'` is reached from `s` without confirmations of unsubscriptions -/
structure Fwd (s s' : State) : Prop where
  l : ∀ e ∈ s'.listed, e ∈ s.listed ∨ (s'.points.find e.1).isSome = true
  p : ∀ k, (s.points.find k).isSome = true → (s'.points.find k).isSome = true
  g : ∀ e ∈ s.log, e ∈ s'.log

theorem Fwd.of {s s' : State} (h1 : s'.listed = s.listed) (h2 : s'.points = s.points) (h3 : ∀ e ∈ s.log, e ∈ s'.log) : Fwd s s' :=
  ⟨fun e h => .inl (h1 ▸ h), fun k h => by rw [h2]; exact h, h3⟩

theorem Fwd.trans {a b c : State} (h1 : Fwd a b) (h2 : Fwd b c) : Fwd a c := by
  refine ⟨fun e h => ?_, fun k h => h2.p k (h1.p k h), fun e h => h2.g e (h1.g e h)⟩
  rcases h2.l e h with h | h
  · rcases h1.l e h with h | h
    · exact .inl h
    · exact .inr (h2.p _ h)
  · exact .inr h

theorem Fwd.inv {s s' : State} (h : Fwd s s') (hi : InvL s) : InvL s' := by
  intro e he
  rcases h.l e he with h1 | h1
  · rcases hi e h1 with h2 | h2
    · exact .inl (h.p _ h2)
    · exact .inr (h2.mono h.g)
  · exact .inl h1

theorem fwd_subscribe {c : Cfg} {s s' : State} {a : Nat} {h : Handler} {addr : Nat} {anon : Bool}
    (he : subscribe c a h addr anon s = .ok s') : Fwd s s' := by
  have key : ∀ s1 : State, s1.listed = s.listed ++ [((h, addr), anon)] → s1.points = s.points.set (h, addr) ⟨anon, false⟩ →
      (∀ e ∈ s.log, e ∈ s1.log) → Fwd s s1 := by
    intro s1 h1 h2 h3
    have hs : ∀ k, (s.points.find k).isSome = true ∨ k = (h, addr) → (s1.points.find k).isSome = true := by
      intro k hk
      rw [h2, AMap.find_set]
      by_cases e : k = (h, addr)
      · simp [e]
      · simp only [if_neg e]
        rcases hk with hk | hk
        · exact hk
        · exact absurd hk e
    refine ⟨fun e hm => ?_, fun k hk => hs k (.inl hk), h3⟩
    rw [h1, List.mem_append, List.mem_singleton] at hm
    rcases hm with hm | rfl
    · exact .inl hm
    · exact .inr (hs _ (.inr rfl))
  simp only [subscribe] at he
  split at he
  · simp at he
  · split at he
    · simp only [Except.ok.injEq] at he
      subst he
      exact key _ rfl rfl (fun e hm => List.mem_cons_of_mem _ hm)
    · simp only [Except.ok.injEq] at he
      subst he
      exact key _ rfl rfl (fun e hm => List.mem_cons_of_mem _ hm)

theorem fwd_unsubscribe {c : Cfg} {s s' : State} {a : Nat} {h : Handler} {addr : Nat}
    (he : unsubscribe c a h addr s = .ok s') : Fwd s s' := by
  simp only [unsubscribe] at he
  split at he
  · simp at he
  · split at he
    · split at he
      · simp only [Except.ok.injEq] at he
        subst he
        exact .of rfl rfl (fun _ h => h)
      · simp at he
    · split at he
      · simp only [Except.ok.injEq] at he
        subst he
        exact .of rfl rfl (fun _ h => h)
      · simp only [Except.ok.injEq] at he
        subst he
        refine ⟨fun e hm => .inl hm, fun k hk => ?_, fun e hm => List.mem_cons_of_mem _ hm⟩
        simp only [send, AMap.find_set]
        by_cases e : k = (h, addr)
        · simp [e]
        · simp only [if_neg e]; exact hk

theorem fwd_runActs {c : Cfg} {a : Nat} : ∀ (l : List Act) (s s' : State), runActs c a l s = .ok s' → Fwd s s' := by
  intro l
  induction l with
  | nil => intro s s' he; simp only [runActs, Except.ok.injEq] at he; subst he; exact .of rfl rfl (fun _ h => h)
  | cons x l ih =>
    intro s s' he
    cases x with
    | send dest ty =>
      simp only [runActs] at he
      exact Fwd.trans (b := send c a dest (.user ty) s) (.of rfl rfl (fun e hm => List.mem_cons_of_mem _ hm)) (ih _ _ he)
    | subscribe h addr anon =>
      simp only [runActs] at he
      cases hs : subscribe c a h addr anon s with
      | error e => rw [hs] at he; simp at he
      | ok s1 => rw [hs] at he; exact (fwd_subscribe hs).trans (ih _ _ he)
    | unsubscribe h addr =>
      simp only [runActs] at he
      cases hs : unsubscribe c a h addr s with
      | error e => rw [hs] at he; simp at he
      | ok s1 => rw [hs] at he; exact (fwd_unsubscribe hs).trans (ih _ _ he)

theorem fwd_callHandler {c : Cfg} {env : Env} {l : Nat} {h : Handler} {o : Orig} {s s' : State} (he : callHandler c env l h o s = .ok s') : Fwd s s' := by
  simp only [callHandler] at he
  exact Fwd.trans (b := { s with log := .exec l h o :: s.log }) (.of rfl rfl (fun e hm => List.mem_cons_of_mem _ hm)) (fwd_runActs _ _ _ he)

theorem fwd_callAll {c : Cfg} {env : Env} {l : Nat} {o : Orig} {j : Joint} : ∀ (hs : List Handler) (s s' : State), callAll c env l o j hs s = .ok s' → Fwd s s' := by
  intro hs
  induction hs with
  | nil => intro s s' he; simp only [callAll, Except.ok.injEq] at he; subst he; exact .of rfl rfl (fun _ h => h)
  | cons h hs ih =>
    intro s s' he
    simp only [callAll] at he
    cases hc : callHandler c env l h o s with
    | error e => rw [hc] at he; simp at he
    | ok s1 =>
      rw [hc] at he
      simp only at he
      split at he
      · exact (fwd_callHandler hc).trans (ih _ _ he)
      · simp at he

theorem fwd_wrapAll {c : Cfg} {o : Orig} : ∀ (hs : List Handler) (s : State), Fwd s (wrapAll c o hs s) := by
  intro hs
  induction hs with
  | nil => intro s; exact .of rfl rfl (fun _ h => h)
  | cons h hs ih =>
    intro s
    exact Fwd.trans (b := enqueue (c.locA h.actor) ⟨s.next, none, c.supAddr (c.locA h.actor), .call h o⟩ { s with next := s.next + 1 })
      (.of rfl rfl (fun _ h => h)) (ih _)

theorem invL_take (c : Cfg) (env : Env) (l : Nat) (s s' : State) (hi : InvL s) (he : take c env l s = .ok s') : InvL s' := by
  cases hq : s.queue l with
  | nil => simp only [take, hq, Except.ok.injEq] at he; subst he; exact hi
  | cons m rest =>
    have h0 : Fwd s { s with queue := upd s.queue l rest, log := .took l m :: s.log } :=
      .of rfl rfl (fun e hm => List.mem_cons_of_mem _ hm)
    simp only [take, hq] at he
    split at he
    · simp only [Except.ok.injEq] at he
      subst he
      exact (h0.trans (.of rfl rfl (fun _ h => h))).inv hi
    · cases hb : m.body with
      | user ty => rw [hb] at he; exact ((h0.trans (fwd_wrapAll _ _)).trans (fwd_callAll _ _ _ he)).inv hi
      | call h o =>
        rw [hb] at he
        simp only [onCall] at he
        split at he
        · exact (h0.trans (fwd_callHandler he)).inv hi
        · simp only [Except.ok.injEq] at he; subst he; exact h0.inv hi
      | extSub h addr =>
        rw [hb] at he
        simp only [onExtSub] at he
        split at he
        · simp at he
        · simp only [Except.ok.injEq] at he
          subst he
          exact Fwd.inv (s := s) (.of rfl rfl (fun e hm => List.mem_cons_of_mem _ (List.mem_cons_of_mem _ hm))) hi
      | unsub h addr =>
        rw [hb] at he
        simp only [onUnsub] at he
        cases hf : s.points.find (h, addr) with
        | none => rw [hf] at he; simp at he
        | some p =>
          rw [hf] at he
          simp only at he
          have key : ∀ s1 : State, s1.points = s.points.erase (h, addr) → (∀ e ∈ s1.listed, e ∈ s.listed) →
              (∀ e, e = .took l m ∨ e ∈ s.log → e ∈ s1.log) → InvL s1 := by
            intro s1 h1 h2 h3 e hm
            by_cases hk : e.1 = (h, addr)
            · refine .inr ⟨l, m, h3 _ (.inl rfl), ?_⟩
              rw [hb, hk]
            · rcases hi e (h2 e hm) with h4 | h4
              · left
                rw [h1, AMap.find_erase_ne _ hk]; exact h4
              · exact .inr (h4.mono (fun x hx => h3 x (.inr hx)))
          have hle : ∀ e ∈ (if p.anon = true then s.listed.erase ((h, addr), true) else s.listed), e ∈ s.listed := by
            intro e hm
            split at hm
            · exact List.mem_of_mem_erase hm
            · exact hm
          split at he
          · split at he
            · simp only [Except.ok.injEq] at he
              subst he
              exact key _ rfl hle (fun e hm => by simpa [setSubs] using hm)
            · simp at he
          · split at he
            · simp at he
            · simp only [Except.ok.injEq] at he
              subst he
              exact key _ rfl (fun e hm => hm) (fun e hm => by simp only [send, List.mem_cons]; exact .inr hm)
      | commit h addr =>
        rw [hb] at he
        simp only [onCommit] at he
        split at he
        · split at he
          · simp only [Except.ok.injEq] at he
            subst he
            exact (h0.trans (.of rfl rfl (fun _ h => h))).inv hi
          · simp at he
        · simp at he
      | confirm h addr =>
        rw [hb] at he
        simp only [Except.ok.injEq] at he
        subst he
        exact h0.inv hi

theorem invL_step (c : Cfg) (env : Env) (s s' : State) (op : Op) (hi : InvL s) (he : step c env s op = .ok s') : InvL s' := by
  cases op with
  | take l => exact invL_take c env l s s' hi he
  | poll l =>
    simp only [step, Except.ok.injEq] at he
    subst he
    simp only [poll]
    cases s.inb l with
    | nil => exact hi
    | cons m rest => exact hi
  | act a l => exact (fwd_runActs _ _ _ he).inv hi
  | outside dest ty => simp only [step, Except.ok.injEq] at he; subst he; exact hi
  | life a alive st => simp only [step, Except.ok.injEq] at he; subst he; exact hi
  | dropPlugin a =>
    simp only [step, Except.ok.injEq] at he
    subst he
    exact fun e hm => hi e (List.mem_filter.1 hm).1

theorem reachL (c : Cfg) (env : Env) (ops : List Op) (s : State) (h : run c env .init ops = .ok s) : InvL s := by
  suffices ∀ (ops : List Op) (s0 : State), InvL s0 → run c env s0 ops = .ok s → InvL s from
    this ops .init (by intro e hm; simp [State.init] at hm) h
  intro ops
  induction ops with
  | nil => intro s0 hi he; simp only [run, Except.ok.injEq] at he; subst he; exact hi
  | cons op ops ih =>
    intro s0 hi he
    simp only [run] at he
    cases hs : step c env s0 op with
    | error e => rw [hs] at he; simp at he
    | ok s1 => rw [hs] at he; exact ih s1 (invL_step c env s0 s1 op hi hs) he

end Verif.Net
