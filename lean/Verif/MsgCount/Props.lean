import Verif.MsgCount.Model
/-!
# C66: a message is destroyed once, when nothing refers to it any more
-/

namespace Verif.MsgCount

/-- how often message `m` occurs in the first `n` lists -/
def tot (n : Nat) (f : Nat → List Nat) (m : Nat) : Nat :=
  match n with
  | 0 => 0
  | n + 1 => tot n f m + (f n).count m

theorem tot_upd_ge {f : Nat → List Nat} {l : List Nat} {k m : Nat} : ∀ {n : Nat}, n ≤ k → tot n (upd f k l) m = tot n f m := by
  intro n
  induction n with
  | zero => intro _; rfl
  | succ n ih =>
    intro h
    simp only [tot, ih (by omega), upd, if_neg (show ¬ n = k by omega)]

theorem tot_upd {f : Nat → List Nat} {l : List Nat} {k m : Nat} : ∀ {n : Nat}, k < n → tot n (upd f k l) m + (f k).count m = tot n f m + l.count m := by
  intro n
  induction n with
  | zero => intro h; omega
  | succ n ih =>
    intro h
    by_cases hk : k = n
    · subst hk
      simp only [tot, tot_upd_ge (Nat.le_refl k), upd, if_true]
      omega
    · have := ih (by omega)
      simp only [tot]
      have h2 : upd f k l n = f n := by simp [upd, Ne.symm hk]
      rw [h2]
      omega

theorem tot_ge {f : Nat → List Nat} {k m : Nat} : ∀ {n : Nat}, k < n → m ∈ f k → 0 < tot n f m := by
  intro n
  induction n with
  | zero => intro h; omega
  | succ n ih =>
    intro h hm
    simp only [tot]
    by_cases hk : k = n
    · subst hk
      have := List.count_pos_iff.2 hm
      omega
    · have := ih (by omega) hm
      omega

theorem tot_pos {f : Nat → List Nat} {m : Nat} : ∀ {n : Nat}, 0 < tot n f m → ∃ k, k < n ∧ m ∈ f k := by
  intro n
  induction n with
  | zero => intro h; simp [tot] at h
  | succ n ih =>
    intro h
    simp only [tot] at h
    by_cases h1 : 0 < tot n f m
    · obtain ⟨k, hk, hm⟩ := ih h1
      exact ⟨k, by omega, hm⟩
    · exact ⟨n, by omega, List.count_pos_iff.1 (by omega)⟩

theorem tot_congr {f g : Nat → List Nat} {m : Nat} : ∀ {n : Nat}, (∀ k, k < n → f k = g k) → tot n f m = tot n g m := by
  intro n
  induction n with
  | zero => intro _; rfl
  | succ n ih =>
    intro h
    simp only [tot, ih (fun k hk => h k (by omega)), h n (by omega)]

/-- how many references to `m` there are in variables, queues and messages -/
def held (n : Nat) (σ : State) (m : Nat) : Nat :=
  σ.vars.count m + tot n σ.queue m + tot n σ.inbound m + tot n σ.later m + tot σ.next σ.refs m

/-- `d`: references the function being executed has at the moment -/
structure Inv (n : Nat) (d : List Nat) (σ : State) : Prop where
  cnt : ∀ m, σ.count m = held n σ m + d.count m
  older : ∀ m r, r ∈ σ.refs m → r < m
  fresh : ∀ m, σ.next ≤ m → σ.count m = 0
  fz : ∀ m, m < σ.next → (σ.count m = 0 ↔ m ∈ σ.freed)
  lt : ∀ m, m ∈ σ.freed → m < σ.next
  nd : σ.freed.Nodup
  empt : ∀ m, σ.count m = 0 → σ.refs m = []
  dead : ∀ s, σ.dead s = true → σ.queue s = [] ∧ σ.inbound s = [] ∧ σ.later s = []
  out : ∀ s, n ≤ s → σ.queue s = [] ∧ σ.inbound s = [] ∧ σ.later s = []

theorem Inv.init (n : Nat) : Inv n [] State.init := by
  have h0 : ∀ k m, tot k (fun _ => []) m = 0 := by
    intro k m
    induction k with
    | zero => rfl
    | succ k ih => simp [tot, ih]
  constructor <;> simp [State.init, held, h0]

theorem Inv.perm {n : Nat} {d d' : List Nat} {σ : State} (h : Inv n d σ) (hd : ∀ m, d.count m = d'.count m) : Inv n d' σ := by
  obtain ⟨cnt, older, fresh, fz, lt, nd, empt, dead, out⟩ := h
  exact ⟨fun m => by rw [cnt m, hd m], older, fresh, fz, lt, nd, empt, dead, out⟩

theorem Inv.outVar {n : Nat} {d : List Nat} {σ : State} (h : Inv n d σ) {m : Nat} (hm : m ∈ σ.vars) : Inv n (m :: d) { σ with vars := σ.vars.erase m } := by
  obtain ⟨cnt, older, fresh, fz, lt, nd, empt, dead, out⟩ := h
  refine ⟨?_, older, fresh, fz, lt, nd, empt, dead, out⟩
  intro x
  have := cnt x
  have hp := List.count_pos_iff.2 hm
  simp only [held] at this ⊢
  rw [List.count_erase, List.count_cons]
  by_cases hx : m = x
  · subst hx; simp; omega
  · have h1 : (m == x) = false := by simp [hx]
    have h2 : (x == m) = false := by simp [Ne.symm hx]
    simp [h1, h2]; omega

theorem Inv.inVar {n : Nat} {d : List Nat} {σ : State} {m : Nat} (h : Inv n (m :: d) σ) : Inv n d { σ with vars := m :: σ.vars } := by
  obtain ⟨cnt, older, fresh, fz, lt, nd, empt, dead, out⟩ := h
  refine ⟨?_, older, fresh, fz, lt, nd, empt, dead, out⟩
  intro x
  have := cnt x
  simp only [held, List.count_cons] at this ⊢
  omega

theorem Inv.setQueue {n : Nat} {d d' : List Nat} {σ : State} (h : Inv n d σ) {s : Nat} {l : List Nat} (hs : s < n) (hd : σ.dead s = false)
    (hl : ∀ x, (σ.queue s).count x + d.count x = l.count x + d'.count x) : Inv n d' { σ with queue := upd σ.queue s l } := by
  obtain ⟨cnt, older, fresh, fz, lt, nd, empt, dead, out⟩ := h
  refine ⟨?_, older, fresh, fz, lt, nd, empt, ?_, ?_⟩
  · intro x
    have h1 := cnt x
    have h2 := tot_upd (f := σ.queue) (l := l) (m := x) hs
    have h3 := hl x
    simp only [held] at h1 ⊢
    omega
  · intro s' h'
    have : s' ≠ s := by intro e; subst e; rw [hd] at h'; cases h'
    simp only [upd, if_neg this]
    exact dead s' h'
  · intro s' h'
    have : s' ≠ s := by omega
    simp only [upd, if_neg this]
    exact out s' h'

theorem Inv.setInbound {n : Nat} {d d' : List Nat} {σ : State} (h : Inv n d σ) {s : Nat} {l : List Nat} (hs : s < n) (hd : σ.dead s = false)
    (hl : ∀ x, (σ.inbound s).count x + d.count x = l.count x + d'.count x) : Inv n d' { σ with inbound := upd σ.inbound s l } := by
  obtain ⟨cnt, older, fresh, fz, lt, nd, empt, dead, out⟩ := h
  refine ⟨?_, older, fresh, fz, lt, nd, empt, ?_, ?_⟩
  · intro x
    have h1 := cnt x
    have h2 := tot_upd (f := σ.inbound) (l := l) (m := x) hs
    have h3 := hl x
    simp only [held] at h1 ⊢
    omega
  · intro s' h'
    have : s' ≠ s := by intro e; subst e; rw [hd] at h'; cases h'
    simp only [upd, if_neg this]
    exact dead s' h'
  · intro s' h'
    have : s' ≠ s := by omega
    simp only [upd, if_neg this]
    exact out s' h'

theorem Inv.setLater {n : Nat} {d d' : List Nat} {σ : State} (h : Inv n d σ) {s : Nat} {l : List Nat} (hs : s < n) (hd : σ.dead s = false)
    (hl : ∀ x, (σ.later s).count x + d.count x = l.count x + d'.count x) : Inv n d' { σ with later := upd σ.later s l } := by
  obtain ⟨cnt, older, fresh, fz, lt, nd, empt, dead, out⟩ := h
  refine ⟨?_, older, fresh, fz, lt, nd, empt, ?_, ?_⟩
  · intro x
    have h1 := cnt x
    have h2 := tot_upd (f := σ.later) (l := l) (m := x) hs
    have h3 := hl x
    simp only [held] at h1 ⊢
    omega
  · intro s' h'
    have : s' ≠ s := by intro e; subst e; rw [hd] at h'; cases h'
    simp only [upd, if_neg this]
    exact dead s' h'
  · intro s' h'
    have : s' ≠ s := by omega
    simp only [upd, if_neg this]
    exact out s' h'

theorem Inv.alive {n : Nat} {d : List Nat} {σ : State} (h : Inv n d σ) {m : Nat} (hm : m ∈ d ∨ m ∈ σ.vars) : σ.count m ≠ 0 := by
  have := h.cnt m
  simp only [held] at this
  rcases hm with hm | hm
  · have := List.count_pos_iff.2 hm; omega
  · have := List.count_pos_iff.2 hm; omega

theorem Inv.addRef {n : Nat} {d : List Nat} {σ : State} (h : Inv n d σ) {m : Nat} (hm : σ.count m ≠ 0) :
    ∃ σ', addRef m σ = .ok σ' ∧ Inv n (m :: d) σ' ∧ σ' = { σ with count := upd σ.count m (σ.count m + 1) } := by
  unfold MsgCount.addRef
  rw [if_neg hm]
  refine ⟨_, rfl, ?_, rfl⟩
  obtain ⟨cnt, older, fresh, fz, lt, nd, empt, dead, out⟩ := h
  refine ⟨?_, older, ?_, ?_, lt, nd, ?_, dead, out⟩
  · intro x
    have := cnt x
    simp only [held, upd, List.count_cons] at this ⊢
    by_cases hx : x = m
    · subst hx; simp; omega
    · have h1 : (m == x) = false := by simp [Ne.symm hx]
      simp [hx, h1]; omega
  · intro x hx
    have := fresh x hx
    have hne : x ≠ m := by intro e; subst e; exact hm this
    simp only [upd, if_neg hne]; exact this
  · intro x hx
    by_cases hxm : x = m
    · subst hxm
      simp only [upd, if_true]
      constructor
      · intro e; omega
      · intro e; exact absurd ((fz x hx).2 e) hm
    · simp only [upd, if_neg hxm]; exact fz x hx
  · intro x hx
    by_cases hxm : x = m
    · subst hxm; simp only [upd, if_true] at hx; omega
    · simp only [upd, if_neg hxm] at hx; exact empt x hx

theorem Inv.release {n : Nat} {d : List Nat} {σ : State} {m : Nat} (h : Inv n (m :: d) σ) : ∃ σ', release m σ = .ok σ' ∧ Inv n d σ' := by
  have hm : σ.count m ≠ 0 := h.alive (.inl (by simp))
  obtain ⟨cnt, older, fresh, fz, lt, nd, empt, dead, out⟩ := h
  have hlt : m < σ.next := by
    refine Nat.lt_of_not_le ?_
    intro e; exact hm (fresh m e)
  unfold MsgCount.release
  rw [if_neg hm]
  split
  · rename_i h1
    refine ⟨_, rfl, ?_⟩
    refine ⟨?_, ?_, ?_, ?_, ?_, ?_, ?_, dead, out⟩
    · intro x
      have hx := cnt x
      have ht := tot_upd (f := σ.refs) (l := []) (m := x) hlt
      simp only [List.count_nil] at ht
      simp only [held, upd, List.count_cons, List.count_append] at hx ⊢
      have ht' : tot σ.next (fun j => if j = m then [] else σ.refs j) x + List.count x (σ.refs m) = tot σ.next σ.refs x := ht
      by_cases hxm : x = m
      · subst hxm; simp at hx ⊢; omega
      · have h1 : (m == x) = false := by simp [Ne.symm hxm]
        simp [hxm, h1] at hx ⊢; omega
    · intro x r hr
      simp only [upd] at hr
      split at hr
      · cases hr
      · exact older x r hr
    · intro x hx
      simp only [upd]
      split
      · rfl
      · exact fresh x hx
    · intro x hx
      simp only [upd]
      by_cases hxm : x = m
      · simp [hxm]
      · simp [hxm]; exact fz x hx
    · intro x hx
      rcases List.mem_cons.1 hx with e | e
      · exact e ▸ hlt
      · exact lt x e
    · refine List.nodup_cons.2 ⟨?_, nd⟩
      intro e; exact hm ((fz m hlt).2 e)
    · intro x hx
      simp only [upd] at hx ⊢
      split
      · rfl
      · rename_i hxm; rw [if_neg hxm] at hx; exact empt x hx
  · rename_i h1
    refine ⟨_, rfl, ?_⟩
    refine ⟨?_, older, ?_, ?_, lt, nd, ?_, dead, out⟩
    · intro x
      have hx := cnt x
      simp only [held, upd, List.count_cons] at hx ⊢
      by_cases hxm : x = m
      · subst hxm; simp at hx ⊢; omega
      · have h1 : (m == x) = false := by simp [Ne.symm hxm]
        simp [hxm, h1] at hx ⊢; omega
    · intro x hx
      have hx' : σ.next ≤ x := hx
      have hne : x ≠ m := by omega
      simp only [upd, if_neg hne]; exact fresh x hx
    · intro x hx
      by_cases hxm : x = m
      · subst hxm
        simp only [upd, if_true]
        constructor
        · intro e; omega
        · intro e; exact absurd ((fz x hx).2 e) hm
      · simp only [upd, if_neg hxm]; exact fz x hx
    · intro x hx
      by_cases hxm : x = m
      · subst hxm; simp only [upd, if_true] at hx; omega
      · simp only [upd, if_neg hxm] at hx; exact empt x hx

theorem Inv.releaseAll {n : Nat} {d : List Nat} : ∀ {l : List Nat} {σ : State}, Inv n (l ++ d) σ → ∃ σ', releaseAll l σ = .ok σ' ∧ Inv n d σ' := by
  intro l
  induction l with
  | nil => intro σ h; exact ⟨σ, rfl, h⟩
  | cons m l ih =>
    intro σ h
    obtain ⟨σ₁, e1, h1⟩ := Inv.release (m := m) (d := l ++ d) h
    obtain ⟨σ₂, e2, h2⟩ := ih h1
    exact ⟨σ₂, by simp only [MsgCount.releaseAll, e1]; exact e2, h2⟩

theorem Inv.addAll {n : Nat} : ∀ {l : List Nat} {d : List Nat} {σ : State}, Inv n d σ → (∀ m ∈ l, m ∈ σ.vars) →
    ∃ σ', addAll l σ = .ok σ' ∧ Inv n (l ++ d) σ' ∧ ∃ c, σ' = { σ with count := c } := by
  intro l
  induction l with
  | nil => intro d σ h _; exact ⟨σ, rfl, h, σ.count, rfl⟩
  | cons m l ih =>
    intro d σ h hl
    obtain ⟨σ₁, e1, h1, x1⟩ := h.addRef (h.alive (.inr (hl m (by simp))))
    have hv : σ₁.vars = σ.vars := by rw [x1]
    obtain ⟨σ₂, e2, h2, c2, x2⟩ := ih h1 (by intro x hx; rw [hv]; exact hl x (by simp [hx]))
    refine ⟨σ₂, by simp only [MsgCount.addAll, e1]; exact e2, ?_, c2, by rw [x2, x1]⟩
    refine h2.perm ?_
    intro x
    simp only [List.count_append, List.count_cons]
    omega

theorem Inv.adopt {n : Nat} {d : List Nat} {σ : State} {m : Nat} (h : Inv n (m :: d) σ) : MsgCount.adopt m false σ = .ok σ := by
  unfold MsgCount.adopt
  rw [if_neg (h.alive (.inl (by simp)))]
  rfl

/-- every step is possible or is not, but it never uses a destroyed message -/
theorem Inv.step {n : Nat} {σ : State} (h : Inv n [] σ) (l : Label) : step n σ l ≠ .error .freed ∧ ∀ σ', step n σ l = .ok σ' → Inv n [] σ' := by
  have done : ∀ {r : Except Err State}, (∃ σ', r = .ok σ' ∧ Inv n [] σ') → r ≠ .error .freed ∧ ∀ σ', r = .ok σ' → Inv n [] σ' := by
    intro r ⟨σ', e, h'⟩
    subst e
    exact ⟨by simp, by intro σ'' e; injection e with e; subst e; exact h'⟩
  have notDead : ∀ {s m : Nat}, (m ∈ σ.queue s ∨ m ∈ σ.inbound s ∨ m ∈ σ.later s) → s < n ∧ σ.dead s = false := by
    intro s m hm
    have key : ∀ (q : σ.queue s = [] ∧ σ.inbound s = [] ∧ σ.later s = []), False := by
      intro ⟨q1, q2, q3⟩
      rw [q1, q2, q3] at hm
      simp at hm
    refine ⟨Nat.lt_of_not_le (fun e => key (h.out s e)), ?_⟩
    cases hd : σ.dead s with
    | false => rfl
    | true => exact (key (h.dead s hd)).elim
  cases l with
  | create ms =>
    simp only [MsgCount.step]
    split
    · rename_i hms
      obtain ⟨σ₁, e1, h1, c, x1⟩ := h.addAll hms
      rw [e1]
      refine done ⟨_, rfl, ?_⟩
      have hn : σ₁.next = σ.next := by rw [x1]
      have hv : σ₁.vars = σ.vars := by rw [x1]
      obtain ⟨cnt, older, fresh, fz, lt, nd, empt, dead, out⟩ := h1
      have f0 := fresh σ₁.next (Nat.le_refl _)
      refine ⟨?_, ?_, ?_, ?_, ?_, nd, ?_, dead, out⟩
      · intro x
        have hx := cnt x
        have h0 := cnt σ₁.next
        rw [f0] at h0
        simp only [held, List.count_cons, List.count_append, List.count_nil] at hx h0 ⊢
        have ht : tot (σ₁.next + 1) (upd σ₁.refs σ₁.next ms) x = tot σ₁.next σ₁.refs x + ms.count x := by
          simp only [tot, tot_upd_ge (Nat.le_refl _), upd, if_true]
        rw [ht]
        by_cases hxm : x = σ₁.next
        · subst hxm; simp [upd] at hx ⊢; omega
        · have h1 : (σ₁.next == x) = false := by simp [Ne.symm hxm]
          simp [upd, hxm, h1] at hx ⊢; omega
      · intro x r hr
        simp only [upd] at hr
        split at hr
        · rename_i hx
          have hr1 : σ.count r ≠ 0 := h.alive (.inr (hms r hr))
          rw [hx, hn]
          exact Nat.lt_of_not_le (fun e => hr1 (h.fresh r e))
        · exact older x r hr
      · intro x hx
        have hx' : σ₁.next + 1 ≤ x := hx
        have hne : x ≠ σ₁.next := by omega
        simp only [upd, if_neg hne]; exact fresh x (by omega)
      · intro x hx
        have hx' : x < σ₁.next + 1 := hx
        by_cases hxm : x = σ₁.next
        · subst hxm
          simp only [upd, if_true]
          constructor
          · intro e; omega
          · intro e; exact absurd (lt _ e) (Nat.lt_irrefl _)
        · simp only [upd, if_neg hxm]; exact fz x (by omega)
      · intro x hx
        exact Nat.lt_succ_of_lt (lt x hx)
      · intro x hx
        by_cases hxm : x = σ₁.next
        · subst hxm; simp only [upd, if_true] at hx; omega
        · simp only [upd, if_neg hxm] at hx ⊢; exact empt x hx
    · simp
  | copy m =>
    simp only [MsgCount.step]
    split
    · rename_i hm
      obtain ⟨σ₁, e1, h1, -⟩ := h.addRef (h.alive (.inr hm))
      rw [e1]
      exact done ⟨_, rfl, h1.inVar⟩
    · simp
  | drop m =>
    simp only [MsgCount.step]
    split
    · rename_i hm
      obtain ⟨σ₁, e1, h1⟩ := (h.outVar hm).release
      exact done ⟨σ₁, e1, h1⟩
    · simp
  | put m s =>
    simp only [MsgCount.step]
    split
    · rename_i hm
      refine done ⟨_, rfl, ?_⟩
      exact (h.outVar hm.1).setQueue hm.2.1 hm.2.2 (by intro x; simp [List.count_append, List.count_cons])
    · simp
  | enqueue m s =>
    simp only [MsgCount.step]
    split
    · rename_i hm
      refine done ⟨_, rfl, ?_⟩
      exact (h.outVar hm.1).setInbound hm.2.1 hm.2.2 (by intro x; simp [List.count_append, List.count_cons])
    · simp
  | move s =>
    simp only [MsgCount.step]
    split
    · cases hq : σ.inbound s with
      | nil => simp
      | cons m l =>
        simp only
        have hs := notDead (s := s) (m := m) (.inr (.inl (by rw [hq]; simp)))
        have h1 : Inv n [m] { σ with inbound := upd σ.inbound s l } :=
          h.setInbound hs.1 hs.2 (by intro x; simp [hq, List.count_cons])
        rw [h1.adopt]
        refine done ⟨_, rfl, ?_⟩
        exact h1.setQueue hs.1 hs.2 (by intro x; simp [List.count_append, List.count_cons])
    · simp
  | take s =>
    simp only [MsgCount.step]
    cases hq : σ.queue s with
    | nil => simp
    | cons m q =>
      simp only
      have hs := notDead (s := s) (m := m) (.inl (by rw [hq]; simp))
      have h1 : Inv n [m] { σ with queue := upd σ.queue s q } :=
        h.setQueue hs.1 hs.2 (by intro x; simp [hq, List.count_cons])
      rw [h1.adopt]
      exact done ⟨_, rfl, h1.inVar⟩
  | uplift s =>
    simp only [MsgCount.step]
    cases hq : (σ.queue s).getLast? with
    | none => simp
    | some m =>
      simp only
      have he : σ.queue s = (σ.queue s).dropLast ++ [m] := by
        obtain ⟨ys, hys⟩ := List.getLast?_eq_some_iff.1 hq
        rw [hys]; simp
      have hs := notDead (s := s) (m := m) (.inl (by rw [he]; simp))
      have h1 : Inv n [m] { σ with queue := upd σ.queue s (σ.queue s).dropLast } :=
        h.setQueue hs.1 hs.2 (by
          intro x
          have := congrArg (List.count x) he
          rw [List.count_append] at this
          simp only [List.count_nil]; omega)
      rw [h1.adopt]
      refine done ⟨_, rfl, ?_⟩
      exact h1.setQueue hs.1 hs.2 (by intro x; simp [List.count_cons])
  | defer m s =>
    simp only [MsgCount.step]
    split
    · rename_i hm
      refine done ⟨_, rfl, ?_⟩
      exact (h.outVar hm.1).setLater hm.2.1 hm.2.2 (by intro x; simp [List.count_append, List.count_cons])
    · simp
  | undefer s =>
    simp only [MsgCount.step]
    cases hq : σ.later s with
    | nil => simp
    | cons m l =>
      simp only
      have hs := notDead (s := s) (m := m) (.inr (.inr (by rw [hq]; simp)))
      have hm : σ.count m ≠ 0 := by
        have := h.cnt m
        have h2 := tot_ge (f := σ.later) hs.1 (by rw [hq]; simp : m ∈ σ.later s)
        simp only [held] at this
        omega
      obtain ⟨σ₁, e1, h1, x1⟩ := h.addRef hm
      rw [e1]
      have hq1 : σ₁.later s = m :: l := by rw [x1]; exact hq
      have hd1 : σ₁.dead s = false := by rw [x1]; exact hs.2
      have h2 : Inv n [] { σ₁ with queue := upd σ₁.queue s (σ₁.queue s ++ [m]) } :=
        h1.setQueue hs.1 hd1 (by intro x; simp [List.count_append, List.count_cons])
      have h3 : Inv n [m] { σ₁ with queue := upd σ₁.queue s (σ₁.queue s ++ [m]), later := upd σ₁.later s l } :=
        h2.setLater hs.1 hd1 (by intro x; simp [hq1, List.count_cons])
      obtain ⟨σ₂, e2, h4⟩ := h3.release
      exact done ⟨σ₂, e2, h4⟩
  | destroy s =>
    simp only [MsgCount.step]
    split
    · rename_i hs
      have h1 : Inv n (σ.inbound s) { σ with inbound := upd σ.inbound s [] } := h.setInbound hs.1 hs.2.1 (by intro x; simp)
      have h2 : Inv n (σ.inbound s ++ σ.queue s) { σ with inbound := upd σ.inbound s [], queue := upd σ.queue s [] } :=
        h1.setQueue hs.1 hs.2.1 (by intro x; simp [List.count_append]; omega)
      have h3 : Inv n (σ.inbound s ++ σ.queue s) { σ with inbound := upd σ.inbound s [], queue := upd σ.queue s [], dead := upd σ.dead s true } := by
        obtain ⟨cnt, older, fresh, fz, lt, nd, empt, dead, out⟩ := h2
        refine ⟨cnt, older, fresh, fz, lt, nd, empt, ?_, out⟩
        intro s' h'
        by_cases he : s' = s
        · subst he; exact ⟨by simp [upd], by simp [upd], hs.2.2⟩
        · simp only [upd, if_neg he] at h' ⊢
          exact h.dead s' h'
      obtain ⟨σ₁, e1, h4⟩ := Inv.releaseAll (d := []) (by rw [List.append_nil]; exact h3)
      rw [e1]
      exact done ⟨_, rfl, h4⟩
    · simp
  | context s =>
    simp only [MsgCount.step]
    split
    · rename_i hs
      have h1 : Inv n (σ.inbound s) { σ with inbound := upd σ.inbound s [] } := h.setInbound hs.1 hs.2 (by intro x; simp)
      obtain ⟨σ₁, e1, h4⟩ := Inv.releaseAll (d := []) (by rw [List.append_nil]; exact h1)
      exact done ⟨σ₁, e1, h4⟩
    · simp

theorem Inv.run {n : Nat} {ls : List Label} : ∀ {σ : State}, Inv n [] σ → MsgCount.run n σ ls ≠ .error .freed ∧ ∀ σ', MsgCount.run n σ ls = .ok σ' → Inv n [] σ' := by
  induction ls with
  | nil => intro σ h; exact ⟨by simp [MsgCount.run], by intro σ' e; simp [MsgCount.run] at e; exact e ▸ h⟩
  | cons l ls ih =>
    intro σ h
    have hs := h.step l
    simp only [MsgCount.run]
    cases he : MsgCount.step n σ l with
    | error e =>
      refine ⟨?_, by simp⟩
      simp only; intro e'; injection e' with e'; subst e'; exact hs.1 he
    | ok σ₁ => exact ih (hs.2 σ₁ he)

/-- **C66** whatever threads, handlers and destructors do, no destroyed message is touched. -/
theorem C66_safe {n : Nat} {ls : List Label} : run n State.init ls ≠ .error .freed := ((Inv.init n).run).1

/-- **C66** no message is destroyed twice. -/
theorem C66_once {n : Nat} {ls : List Label} {σ : State} (h : run n State.init ls = .ok σ) : σ.freed.Nodup :=
  (((Inv.init n).run).2 σ h).nd

/-- **C66** a message exists as long as it is in a queue, in an inbound queue (which holds plain pointers), in a closure, in a variable or in
another message that exists. -/
theorem C66_kept {n : Nat} {ls : List Label} {σ : State} (h : run n State.init ls = .ok σ) {m : Nat}
    (hm : m ∈ σ.vars ∨ (∃ s, m ∈ σ.queue s ∨ m ∈ σ.inbound s ∨ m ∈ σ.later s) ∨ ∃ m', m' ∉ σ.freed ∧ m ∈ σ.refs m') :
    m < σ.next ∧ m ∉ σ.freed := by
  have hi := ((Inv.init n).run).2 σ h
  have hc : σ.count m ≠ 0 := by
    have hx := hi.cnt m
    simp only [held] at hx
    rcases hm with hm | ⟨s, hm⟩ | ⟨m', -, hm⟩
    · have := List.count_pos_iff.2 hm; omega
    · have hs : s < n := by
        refine Nat.lt_of_not_le (fun e => ?_)
        obtain ⟨q1, q2, q3⟩ := hi.out s e
        rw [q1, q2, q3] at hm; simp at hm
      rcases hm with hm | hm | hm
      · have := tot_ge hs hm; omega
      · have := tot_ge hs hm; omega
      · have := tot_ge hs hm; omega
    · have hs : m' < σ.next := by
        refine Nat.lt_of_not_le (fun e => ?_)
        rw [hi.empt m' (hi.fresh m' e)] at hm; cases hm
      have := tot_ge hs hm; omega
  have hlt : m < σ.next := Nat.lt_of_not_le (fun e => hc (hi.fresh m e))
  exact ⟨hlt, fun e => hc ((hi.fz m hlt).2 e)⟩

/-- **C66** a message that nothing refers to has been destroyed. -/
theorem C66_released {n : Nat} {ls : List Label} {σ : State} (h : run n State.init ls = .ok σ) {m : Nat} (hm : m < σ.next)
    (h1 : m ∉ σ.vars) (h2 : ∀ s, m ∉ σ.queue s ∧ m ∉ σ.inbound s ∧ m ∉ σ.later s) (h3 : ∀ m', m' ∉ σ.freed → m ∉ σ.refs m') : m ∈ σ.freed := by
  have hi := ((Inv.init n).run).2 σ h
  refine (hi.fz m hm).1 ?_
  have hz : ∀ {k : Nat} {f : Nat → List Nat}, (∀ s, s < k → m ∉ f s) → tot k f m = 0 := by
    intro k f hf
    refine Nat.eq_zero_of_not_pos (fun e => ?_)
    obtain ⟨s, hs, hx⟩ := tot_pos e
    exact hf s hs hx
  have hx := hi.cnt m
  have hv : σ.vars.count m = 0 := List.count_eq_zero.2 h1
  have ht : tot σ.next σ.refs m = 0 := by
    refine hz ?_
    intro m' hm' e
    by_cases hf : m' ∈ σ.freed
    · rw [hi.empt m' ((hi.fz m' hm').2 hf)] at e; cases e
    · exact h3 m' hf e
  simp only [held] at hx
  rw [hv, hz (fun s _ => (h2 s).1), hz (fun s _ => (h2 s).2.1), hz (fun s _ => (h2 s).2.2), ht] at hx
  simpa using hx

/-- **C66** when the supervisors have been destroyed, or have nothing left in their queues, and there are no variables any more, all messages that were ever
made have been destroyed: nothing is lost in an inbound queue. -/
theorem C66_no_leak {n : Nat} {ls : List Label} {σ : State} (h : run n State.init ls = .ok σ) (hv : σ.vars = [])
    (hs : ∀ s, σ.dead s = true ∨ σ.queue s = [] ∧ σ.inbound s = [] ∧ σ.later s = []) : ∀ m, m < σ.next → m ∈ σ.freed := by
  have hi := ((Inv.init n).run).2 σ h
  have hq : ∀ s, σ.queue s = [] ∧ σ.inbound s = [] ∧ σ.later s = [] := by
    intro s
    rcases hs s with hd | hd
    · exact hi.dead s hd
    · exact hd
  -- the newest message that is left has nothing that refers to it
  have key : ∀ k m, σ.next - m ≤ k → m < σ.next → m ∈ σ.freed := by
    intro k
    induction k with
    | zero => intro m h1 h2; omega
    | succ k ih =>
      intro m h1 h2
      refine C66_released h h2 (by rw [hv]; simp) ?_ ?_
      · intro s
        obtain ⟨q1, q2, q3⟩ := hq s
        rw [q1, q2, q3]; simp
      · intro m' hm' hr
        have hlt := hi.older m' m hr
        by_cases hn : m' < σ.next
        · exact hm' (ih m' (by omega) hn)
        · rw [hi.empt m' (hi.fresh m' (by omega))] at hr; cases hr
  intro m hm
  exact key (σ.next - m) m (Nat.le_refl _) hm

/-! ## Cases -/

theorem ok_of {r : Except Err State} {p : State → Prop} [DecidablePred p]
    (h : (match r with | .ok σ => decide (p σ) | .error _ => false) = true) : ∃ σ, r = .ok σ ∧ p σ := by
  cases r with
  | ok σ => exact ⟨σ, rfl, by simpa using h⟩
  | error e => cases h

/-- a message, dispatched at one supervisor, becomes a member of a foreign call in the inbound queue of the other, which is destroyed before it is
processed; a second message is left in the inbound queue of the root supervisor, a third one in its queue -/
def script : List Label :=
  [.create [], .put 0 0, .take 0, .create [0], .enqueue 1 1, .drop 0, .create [], .enqueue 2 0, .move 0, .create [], .enqueue 3 0,
   .destroy 1, .drop 0, .context 0, .destroy 0]

example : ∃ σ, run 2 State.init script = .ok σ ∧ σ.next = 4 ∧ σ.freed = [2, 3, 0, 1] ∧ σ.vars = [] ∧ σ.dead 0 = true ∧ σ.dead 1 = true := ok_of rfl

/-- before the end they are all there -/
example : ∃ σ, run 2 State.init (script.take 11) = .ok σ ∧ σ.freed = [] ∧ σ.queue 0 = [2] ∧ σ.inbound 0 = [3] ∧ σ.inbound 1 = [1] ∧ σ.refs 1 = [0] ∧
    σ.vars = [] := ok_of rfl

/-- with wx a closure has the message -/
example : ∃ σ, run 2 State.init [.create [], .defer 0 1, .undefer 1, .take 1, .drop 0] = .ok σ ∧ σ.freed = [0] := ok_of rfl

end Verif.MsgCount
