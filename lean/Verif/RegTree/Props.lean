import Verif.RegTree.Model

/-!
# C60: every supervisor uses the registry of the nearest supervisor that has one
-/

namespace Verif.RegTree

/-- what the user expects: the registry a supervisor was given or has created, else that of its parent -/
inductive Uses (sups : Nat → Option Sup) : Nat → Option Addr → Prop
  | given {s : Nat} {x : Sup} {a : Addr} : sups s = some x → x.cfg.given = some a → Uses sups s (some a)
  | own {s : Nat} {x : Sup} : sups s = some x → x.cfg.create = true → Uses sups s (some (.own s))
  | parent {s p : Nat} {x : Sup} {r : Option Addr} : sups s = some x → x.cfg.given = none → x.cfg.create = false → x.parent = some p →
      Uses sups p r → Uses sups s r
  | root {s : Nat} {x : Sup} : sups s = some x → x.cfg.given = none → x.cfg.create = false → x.parent = none → Uses sups s none

/-- the claim determines the address -/
theorem Uses.unique {sups : Nat → Option Sup} {s : Nat} {r r' : Option Addr} (hv : ∀ s x, sups s = some x → x.cfg.valid = true)
    (h : Uses sups s r) (h' : Uses sups s r') : r = r' := by
  induction h with
  | @given s x a h1 h2 => cases h' <;> grind [Cfg.valid]
  | @own s x h1 h2 => cases h' <;> grind [Cfg.valid]
  | @parent s p x r h1 h2 h3 h4 _ ih =>
    cases h' with
    | given g1 g2 => grind
    | own g1 g2 => grind
    | parent g1 g2 g3 g4 g5 => rw [h1] at g1; cases g1; rw [h4] at g4; cases g4; exact ih g5
    | root g1 g2 g3 g4 => grind
  | @root s x h1 h2 h3 h4 => cases h' <;> grind

/-- what the code does -/
def value (sups : Nat → Option Sup) (s : Nat) (x : Sup) : Option Addr :=
  if x.cfg.create then some (.own s)
  else match x.cfg.given with
    | some a => some a
    | none => match x.parent with
      | none => none
      | some p => match sups p with
        | none => none
        | some y => if x.early then y.cfg.given else y.reg

structure Inv (σ : State) : Prop where
  dom : ∀ s, s < σ.n ↔ ∃ x, σ.sups s = some x
  sorted : σ.stack.Pairwise (· > ·)
  stk : ∀ s x, σ.sups s = some x → (s ∈ σ.stack ↔ x.done = false)
  stn : ∀ s ∈ σ.stack, s < σ.n
  par : ∀ s x p, σ.sups s = some x → x.parent = some p → p < s
  new : ∀ s x, σ.sups s = some x → x.done = false → x.reg = x.cfg.given
  early : ∀ s x p, σ.sups s = some x → x.done = false → x.parent = some p → (x.early = true ↔ p ∈ σ.stack)
  val : ∀ s x, σ.sups s = some x → x.done = true → x.reg = value σ.sups s x
  on : ∀ s x, σ.sups s = some x → x.done = true → x.early = false → ∀ p, x.parent = some p → p ∉ σ.stack
  okv : ∀ s x, σ.sups s = some x → x.cfg.valid = true

theorem Inv.init : Inv .init := by
  constructor <;> simp [State.init]

theorem Inv.start {σ : State} (h : Inv σ) {p : Option Nat} {c : Cfg} (hc : c.valid = true) (hp : ∀ q, p = some q → q < σ.n) :
    Inv { n := σ.n + 1, sups := upd σ.sups σ.n ⟨p, c, c.given, false, running σ p⟩, stack := σ.n :: σ.stack } := by
  obtain ⟨h1, h2, h3, h4, h5, h6, h7, h8, h9, h10⟩ := h
  have new : σ.sups σ.n = none := by
    cases e : σ.sups σ.n with
    | none => rfl
    | some x => exact absurd ((h1 σ.n).2 ⟨x, e⟩) (Nat.lt_irrefl _)
  have lt : ∀ s x, σ.sups s = some x → s < σ.n := fun s x e => (h1 s).2 ⟨x, e⟩
  constructor
  · intro s
    simp only [upd]
    by_cases e : s = σ.n
    · simp [e]
    · simp only [if_neg e]; rw [← h1 s]; omega
  · exact List.pairwise_cons.2 ⟨h4, h2⟩
  · intro s x hx
    simp only [upd] at hx
    grind
  · intro s hs
    simp only [List.mem_cons] at hs
    rcases hs with rfl | hs
    · exact Nat.lt_succ_self _
    · exact Nat.lt_succ_of_lt (h4 s hs)
  · intro s x q hx hq
    simp only [upd] at hx
    grind
  · intro s x hx hd
    simp only [upd] at hx
    grind
  · intro s x q hx hd hq
    simp only [upd] at hx
    by_cases e : s = σ.n
    · subst e
      simp only [if_true, Option.some.injEq] at hx
      subst hx
      simp only at hq
      subst hq
      have := hp q rfl
      simp only [running, decide_eq_true_eq, List.mem_cons]
      constructor
      · exact .inr
      · intro h; rcases h with h | h
        · omega
        · exact h
    · simp only [if_neg e] at hx
      have := h5 s x q hx hq
      have := lt s x hx
      rw [h7 s x q hx hd hq]
      simp only [List.mem_cons]
      constructor
      · exact .inr
      · intro h; rcases h with h | h
        · omega
        · exact h
  · intro s x hx hd
    simp only [upd] at hx
    by_cases e : s = σ.n
    · subst e
      simp only [if_true, Option.some.injEq] at hx
      subst hx; simp at hd
    · simp only [if_neg e] at hx
      rw [h8 s x hx hd]
      simp only [value]
      split
      · rfl
      · split
        · rfl
        · split
          · rfl
          · rename_i q hq
            have := h5 s x q hx hq
            have := lt s x hx
            simp only [upd, if_neg (show q ≠ σ.n by omega)]
  · intro s x hx hd he q hq
    simp only [upd] at hx
    by_cases e : s = σ.n
    · subst e
      simp only [if_true, Option.some.injEq] at hx
      subst hx; simp at hd
    · simp only [if_neg e] at hx
      have := h5 s x q hx hq
      have := lt s x hx
      simp only [List.mem_cons, not_or]
      exact ⟨by omega, h9 s x hx hd he q hq⟩
  · intro s x hx
    simp only [upd] at hx
    grind

theorem Inv.finish {σ : State} (h : Inv σ) {s : Nat} {t : List Nat} {x : Sup} (hs : σ.stack = s :: t) (hx : σ.sups s = some x) :
    Inv { σ with sups := upd σ.sups s { x with reg := resolve σ s x, done := true }, stack := t } := by
  obtain ⟨h1, h2, h3, h4, h5, h6, h7, h8, h9, h10⟩ := h
  rw [hs] at h2
  obtain ⟨g1, g2⟩ := List.pairwise_cons.1 h2
  have hst : s ∉ t := fun hm => absurd (g1 s hm) (Nat.lt_irrefl _)
  have hd : x.done = false := (h3 s x hx).1 (by rw [hs]; simp)
  have hm : ∀ q, q ∈ σ.stack ↔ q = s ∨ q ∈ t := by intro q; rw [hs]; simp
  constructor
  · intro q
    simp only [upd]
    by_cases e : q = s
    · subst e; simp only [if_true]; rw [h1]; simp [hx]
    · simp only [if_neg e]; exact h1 q
  · exact g2
  · intro q y hy
    simp only [upd] at hy
    grind
  · intro q hq; exact h4 q ((hm q).2 (.inr hq))
  · intro q y p hy hp
    simp only [upd] at hy
    grind
  · intro q y hy hyd
    simp only [upd] at hy
    grind
  · intro q y p hy hyd hp
    simp only [upd] at hy
    by_cases e : q = s
    · subst e
      simp only [if_true, Option.some.injEq] at hy
      subst hy; simp at hyd
    · simp only [if_neg e] at hy
      rw [h7 q y p hy hyd hp, hm]
      have hqm := (h3 q y hy).2 hyd
      rw [hm] at hqm
      have := h5 q y p hy hp
      have := g1 q (by grind)
      grind
  · intro q y hy hyd
    simp only [upd] at hy
    by_cases e : q = s
    · subst e
      simp only [if_true, Option.some.injEq] at hy
      subst hy
      simp only [value, resolve]
      rw [h6 q x hx hd]
      by_cases hc : x.cfg.create = true
      · simp [hc]
      · simp only [if_neg hc]
        cases hg : x.cfg.given with
        | some a => rfl
        | none =>
          simp only
          cases hp : x.parent with
          | none => rfl
          | some p =>
            have h0 := h5 q x p hx hp
            simp only [regOf, upd, if_neg (show p ≠ q by omega)]
            cases hy : σ.sups p with
            | none => rfl
            | some y =>
              simp only
              by_cases he : x.early = true
              · rw [if_pos he]
                exact h6 p y hy ((h3 p y hy).1 ((h7 q x p hx hd hp).1 he))
              · rw [if_neg he]
    · simp only [if_neg e] at hy
      rw [h8 q y hy hyd]
      simp only [value]
      split
      · rfl
      · split
        · rfl
        · split
          · rfl
          · rename_i p hp
            simp only [upd]
            by_cases e2 : p = s
            · subst e2
              simp only [if_true, hx]
              cases he : y.early with
              | true => rfl
              | false => exact absurd ((hm p).2 (.inl rfl)) (h9 q y hy hyd he p hp)
            · simp only [if_neg e2]
  · intro q y hy hyd he p hp
    simp only [upd] at hy
    by_cases e : q = s
    · subst e
      simp only [if_true, Option.some.injEq] at hy
      subst hy
      simp only at he hp
      intro hpt
      have := (h7 q x p hx hd hp).2 ((hm p).2 (.inr hpt))
      rw [he] at this; simp at this
    · simp only [if_neg e] at hy
      exact fun hpt => h9 q y hy hyd he p hp ((hm p).2 (.inr hpt))
  · intro q y hy
    simp only [upd] at hy
    grind

theorem Inv.step {σ σ' : State} (h : Inv σ) (op : Op) (he : step σ op = some σ') : Inv σ' := by
  cases op with
  | start p c =>
    simp only [RegTree.step] at he
    split at he
    · rename_i hc
      split at he
      · rename_i hp
        simp only [Option.some.injEq] at he
        subst he
        exact h.start hc hp
      · simp at he
    · simp only [Option.some.injEq] at he
      subst he; exact h
  | finish =>
    simp only [RegTree.step] at he
    split at he
    · simp at he
    · rename_i s t hs
      split at he
      · simp at he
      · rename_i x hx
        simp only [Option.some.injEq] at he
        subst he
        exact h.finish hs hx

theorem Inv.run {ops : List Op} : ∀ {σ σ' : State}, Inv σ → run σ ops = some σ' → Inv σ' := by
  induction ops with
  | nil => intro σ σ' h he; simp only [RegTree.run, Option.some.injEq] at he; subst he; exact h
  | cons op ops ih =>
    intro σ σ' h he
    simp only [RegTree.run] at he
    cases hs : RegTree.step σ op with
    | none => rw [hs] at he; simp at he
    | some σ1 => rw [hs] at he; exact ih (h.step op hs) he

/-- a supervisor that is created while `do_initialize` of its parent is running has a registry itself, or its parent was given one -/
def Timely (σ : State) : Prop :=
  ∀ s x p y, σ.sups s = some x → x.early = true → x.parent = some p → σ.sups p = some y →
    x.cfg.given.isSome = true ∨ x.cfg.create = true ∨ y.cfg.given.isSome = true

/-- **C60**. Every supervisor has the address the user expects -/
theorem C60_nearest_partial {ops : List Op} {σ : State} (hr : run .init ops = some σ) (ht : Timely σ) {s : Nat} {x : Sup}
    (hs : σ.sups s = some x) (hd : x.done = true) : Uses σ.sups s x.reg := by
  have hi := Inv.init.run hr
  induction s using Nat.strongRecOn generalizing x with
  | ind s ih =>
    rw [hi.val s x hs hd]
    simp only [value]
    by_cases hc : x.cfg.create = true
    · rw [if_pos hc]; exact .own hs hc
    · rw [if_neg hc]
      cases hg : x.cfg.given with
      | some a => exact .given hs hg
      | none =>
        simp only
        cases hpar : x.parent with
        | none => exact .root hs hg (by simpa using hc) hpar
        | some p =>
          have hlt := hi.par s x p hs hpar
          obtain ⟨y, hy⟩ := (hi.dom p).1 (Nat.lt_trans hlt ((hi.dom s).2 ⟨x, hs⟩))
          simp only [hy]
          refine .parent hs hg (by simpa using hc) hpar ?_
          by_cases he : x.early = true
          · rw [if_pos he]
            have := ht s x p y hs he hpar hy
            rw [hg] at this
            rcases this with h | h | h
            · simp at h
            · exact absurd h hc
            · cases hyg : y.cfg.given with
              | none => rw [hyg] at h; simp at h
              | some a => exact .given hy hyg
          · rw [if_neg he]
            have hps : p ∉ σ.stack := hi.on s x hs hd (by simpa using he) p hpar
            have hyd : y.done = true := by
              cases h : y.done with
              | true => rfl
              | false => exact absurd ((hi.stk p y hy).2 h) hps
            exact ih p hlt hy hyd

/-- the address is never changed after `do_initialize`, whatever is created later -/
theorem C60_stable {ops ops' : List Op} {σ σ' : State} (hr : run .init ops = some σ) (hr' : run σ ops' = some σ') {s : Nat} {x : Sup}
    (hs : σ.sups s = some x) (hd : x.done = true) : σ'.sups s = some x := by
  have hi := Inv.init.run hr
  clear hr
  induction ops' generalizing σ with
  | nil => simp only [run, Option.some.injEq] at hr'; subst hr'; exact hs
  | cons op ops' ih =>
    simp only [run] at hr'
    cases h1 : step σ op with
    | none => rw [h1] at hr'; simp at hr'
    | some σ1 =>
      rw [h1] at hr'
      refine ih hr' ?_ (hi.step op h1)
      cases op with
      | start p c =>
        simp only [step] at h1
        split at h1
        · split at h1
          · simp only [Option.some.injEq] at h1
            subst h1
            have := (hi.dom s).2 ⟨x, hs⟩
            simp only [upd, if_neg (show s ≠ σ.n by omega)]
            exact hs
          · simp at h1
        · simp only [Option.some.injEq] at h1; subst h1; exact hs
      | finish =>
        simp only [step] at h1
        split at h1
        · simp at h1
        · rename_i q t hq
          split at h1
          · simp at h1
          · rename_i y hy
            simp only [Option.some.injEq] at h1
            subst h1
            by_cases e : s = q
            · subst e
              have := (hi.stk s x hs).1 (by rw [hq]; simp)
              rw [hd] at this; simp at this
            · simp only [upd, if_neg e]; exact hs

/-- Without the restriction: a supervisor without a registry that is created in `configure` of a parent that creates the registry (the usual
place to create children) does not get it: its address is null for ever, and so is that of everybody below. -/
theorem C60_early_counterexample {ops : List Op} {σ : State} (hr : run .init ops = some σ) {s p : Nat} {x y : Sup} (hs : σ.sups s = some x)
    (hd : x.done = true) (he : x.early = true) (hp : x.parent = some p) (hy : σ.sups p = some y) (hyc : y.cfg.create = true)
    (hg : x.cfg.given = none) (hc : x.cfg.create = false) : x.reg = none ∧ Uses σ.sups s (some (.own p)) := by
  have hi := Inv.init.run hr
  refine ⟨?_, .parent hs hg hc hp (.own hy hyc)⟩
  have hyg : y.cfg.given = none := by
    have := hi.okv p y hy
    cases h : y.cfg.given with
    | none => rfl
    | some a => simp [Cfg.valid, h, hyc] at this
  rw [hi.val s x hs hd]
  simp [value, hc, hg, hp, hy, he, hyg]

/-! ## cases -/

def plain : Cfg := ⟨none, false⟩
def creates : Cfg := ⟨none, true⟩
def uses7 : Cfg := ⟨some (.user 7), false⟩

def regs (ops : List Op) (n : Nat) : Option (List (Option (Option Addr))) :=
  (run .init ops).map fun σ => (List.range n).map fun s => (σ.sups s).map (·.reg)

/-- the root creates a registry; two levels below use it, a third one has its own -/
example : regs [.start none creates, .finish, .start (some 0) plain, .finish, .start (some 1) plain, .finish, .start (some 0) uses7, .finish,
    .start (some 3) plain, .finish] 5 = some [some (some (.own 0)), some (some (.own 0)), some (some (.own 0)), some (some (.user 7)),
    some (some (.user 7))] := by decide

/-- a child created in `configure` of the root, and a grandchild created later -/
example : regs [.start none creates, .start (some 0) plain, .finish, .finish, .start (some 1) plain, .finish] 3 =
    some [some (some (.own 0)), some none, some none] := by decide

/-- a child created in `configure` of a root that was given a registry -/
example : regs [.start none uses7, .start (some 0) plain, .finish, .finish] 2 = some [some (some (.user 7)), some (some (.user 7))] := by decide

end Verif.RegTree
