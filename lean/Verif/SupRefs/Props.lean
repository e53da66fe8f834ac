import Verif.SupRefs.Model

/-! # Property C68: references of the event loops to a supervisor -/

namespace Verif.SupRefs

/-- references of the timers in `timers_map` -/
def mult : Backend → Nat
  | .ev => 1
  | .fltk => 2
  | .wx => 1
  | .asio => 0

/-- references of a running callback -/
def refFrame (b : Backend) : Frame → Nat
  | .trig _ => if b = .asio then 1 else 0
  | .cancel _ => 0
  | .proc .timerHeld => 1
  | .proc .task => 1
  | .proc _ => 0

/-- all references of the event loop and its callbacks -/
def refs (b : Backend) (s : State) : Nat :=
  mult b * s.timers.length + s.waits.length + s.defers.length + s.tasks + (s.stack.map (refFrame b)).sum

structure Inv (b : Backend) (s : State) : Prop where
  cnt : s.rc = s.ext + refs b s
  alive : s.dead = decide (s.rc = 0)
  nodup : s.timers.Nodup
  busyNodup : (busy s).Nodup
  busySub : ∀ id ∈ busy s, id ∈ s.timers
  armedNodup : b ≠ .asio → s.armed.Nodup
  armedSub : b ≠ .asio → ∀ id ∈ s.armed, id ∈ s.timers ∧ id ∉ busy s

theorem inv_init (b : Backend) : Inv b .init := by
  constructor <;> simp [State.init, refs, busy]

/-- what the invariant says about everything but the counter -/
structure Shape (b : Backend) (s : State) : Prop where
  nodup : s.timers.Nodup
  busyNodup : (busy s).Nodup
  busySub : ∀ id ∈ busy s, id ∈ s.timers
  armedNodup : b ≠ .asio → s.armed.Nodup
  armedSub : b ≠ .asio → ∀ id ∈ s.armed, id ∈ s.timers ∧ id ∉ busy s

theorem Inv.shape {b : Backend} {s : State} (h : Inv b s) : Shape b s := ⟨h.nodup, h.busyNodup, h.busySub, h.armedNodup, h.armedSub⟩

theorem inv_mk {b : Backend} {s : State} (h : Shape b s) (h1 : s.rc = s.ext + refs b s) (h2 : s.dead = decide (s.rc = 0)) : Inv b s :=
  ⟨h1, h2, h.nodup, h.busyNodup, h.busySub, h.armedNodup, h.armedSub⟩

theorem Shape.of {b : Backend} {s t : State} (h : Shape b s) (h1 : t.timers = s.timers) (h2 : t.armed = s.armed) (h3 : busy t = busy s) : Shape b t := by
  obtain ⟨a1, a2, a3, a4, a5⟩ := h
  constructor
  · rw [h1]; exact a1
  · rw [h3]; exact a2
  · rw [h1, h3]; exact a3
  · rw [h2]; exact a4
  · rw [h1, h2, h3]; exact a5

/-- a reference is there and is released -/
theorem release_ok {b : Backend} {s : State} (h : Shape b s) (h1 : s.rc = s.ext + refs b s + 1) (h2 : s.dead = false) :
    ∃ t, release s = .ok t ∧ Inv b t ∧ t.stack = s.stack ∧ t.ext = s.ext ∧ t.timers = s.timers := by
  unfold release
  rw [if_neg (by simp [h2]; omega)]
  by_cases hr : s.rc = 1
  · rw [if_pos hr]
    refine ⟨_, rfl, inv_mk (h.of rfl rfl rfl) ?_ (by simp), rfl, rfl, rfl⟩
    simp only [refs] at h1 ⊢
    omega
  · rw [if_neg hr]
    refine ⟨_, rfl, inv_mk (h.of rfl rfl rfl) ?_ ?_, rfl, rfl, rfl⟩
    · simp only [refs] at h1 ⊢
      omega
    · simp only [h2]
      symm
      rw [decide_eq_false_iff_not]
      omega

/-- in general -/
theorem release_inv {b : Backend} {s t : State} (h : Shape b s) (h1 : s.rc = s.ext + refs b s + 1) (h3 : release s = .ok t) : Inv b t := by
  have h2 : s.dead = false := by
    cases hd : s.dead
    · rfl
    · simp [release, hd] at h3
  obtain ⟨t', e1, e2, _⟩ := release_ok h h1 h2
  rw [e1] at h3
  cases h3
  exact e2

theorem erase_len {l : List Nat} {a : Nat} (h : a ∈ l) : l.length = (l.erase a).length + 1 := by
  rw [List.length_erase_of_mem h]
  have := List.length_pos_of_mem h
  omega

/-- the end of a callback: the timer is erased from the map -/
theorem shape_erase {b : Backend} {s : State} {id : Nat} {f : Frame} {fs : List Frame} (h : Shape b s) (hs : s.stack = f :: fs)
    (hf : f = .trig id ∨ f = .cancel id) : Shape b { s with stack := fs, timers := s.timers.erase id } ∧ id ∈ s.timers := by
  have hb : busy s = id :: busy { s with stack := fs } := by
    unfold busy
    rw [hs]
    rcases hf with rfl | rfl <;> rfl
  obtain ⟨a1, a2, a3, a4, a5⟩ := h
  rw [hb] at a2 a3 a5
  rw [List.nodup_cons] at a2
  refine ⟨⟨a1.erase _, a2.2, ?_, a4, ?_⟩, a3 id List.mem_cons_self⟩
  · intro x hx
    have : x ≠ id := by rintro rfl; exact a2.1 hx
    exact (List.mem_erase_of_ne this).2 (a3 x (List.mem_cons_of_mem _ hx))
  · intro hb x hx
    have h5 := a5 hb x hx
    simp only [List.mem_cons, not_or] at h5
    exact ⟨(List.mem_erase_of_ne h5.2.1).2 h5.1, h5.2.2⟩

theorem shape_proc {b : Backend} {s : State} (h : Shape b s) (f : From) : Shape b { s with stack := .proc f :: s.stack } :=
  h.of rfl rfl rfl

theorem shape_unproc {b : Backend} {s : State} {f : From} {fs : List Frame} (h : Shape b s) (hs : s.stack = .proc f :: fs) :
    Shape b { s with stack := fs } := by
  refine h.of rfl rfl ?_
  unfold busy
  rw [hs]; rfl

theorem inv_step {b : Backend} {raw : Bool} {s t : State} {o : Op} (h : Inv b s) (hst : step b raw s o = .ok t) : Inv b t := by
  have hs := h.shape
  have hc := h.cnt
  have ha := h.alive
  have hrel : ∀ {u : State}, release u = .ok t → Shape b u → u.rc = u.ext + refs b u + 1 → Inv b t := fun h3 h1 h2 => release_inv h1 h2 h3
  cases o with
  | hold =>
    simp only [step] at hst
    split at hst <;> cases hst
    · exact h
    · refine inv_mk (hs.of rfl rfl rfl) ?_ ?_
      · simp only [addRef, refs] at hc ⊢; omega
      · simp_all [addRef]
  | drop =>
    simp only [step] at hst
    split at hst
    · cases hst; exact h
    · refine hrel hst (hs.of rfl rfl rfl) ?_
      simp only [refs] at hc ⊢; omega
  | start id =>
    simp only [step] at hst
    split at hst
    · cases hst; exact h
    · rename_i hg
      cases hst
      simp only [not_or, Bool.not_eq_true] at hg
      obtain ⟨g1, g2, g3, g4⟩ := hg
      have hsh : ∀ u : State, u.timers = id :: s.timers → u.armed = id :: s.armed → u.stack = s.stack → Shape b u := by
        intro u h1 h2 h3
        have hb : busy u = busy s := by unfold busy; rw [h3]
        refine ⟨by rw [h1]; exact List.nodup_cons.2 ⟨g2, hs.nodup⟩, hb ▸ hs.busyNodup, ?_, ?_, ?_⟩
        · intro x hx; rw [hb] at hx; rw [h1]; exact List.mem_cons_of_mem _ (hs.busySub x hx)
        · intro hn; rw [h2]; exact List.nodup_cons.2 ⟨fun hm => g2 (hs.armedSub hn id hm).1, hs.armedNodup hn⟩
        · intro hn x hx
          rw [h2] at hx
          rw [h1, hb]
          rcases List.mem_cons.1 hx with rfl | hx
          · exact ⟨List.mem_cons_self, fun hm => g2 (hs.busySub _ hm)⟩
          · exact ⟨List.mem_cons_of_mem _ (hs.armedSub hn x hx).1, (hs.armedSub hn x hx).2⟩
      have hr0 : s.rc ≠ 0 := by rw [g1] at ha; simpa using ha.symm
      unfold startTimer
      cases b <;>
      · refine inv_mk (hsh _ rfl rfl rfl) ?_ ?_
        · simp only [addRef, refs, mult, List.length_cons] at hc ⊢
          omega
        · simp [addRef, g1]
  | cancel id =>
    simp only [step] at hst
    split at hst
    · cases hst; exact h
    · rename_i hg
      cases hst
      simp only [not_or, Bool.not_eq_true, Decidable.not_not] at hg
      obtain ⟨g1, g2, g3⟩ := hg
      refine inv_mk ⟨hs.nodup, List.nodup_cons.2 ⟨g3, hs.busyNodup⟩, ?_, fun hn => (hs.armedNodup hn).erase _, ?_⟩ ?_ ha
      · intro x hx
        rcases List.mem_cons.1 (show x ∈ id :: busy s from hx) with rfl | hx
        · exact g2
        · exact hs.busySub x hx
      · intro hn x hx
        have hx' : x ∈ s.armed.erase id := hx
        rw [(hs.armedNodup hn).mem_erase_iff] at hx'
        refine ⟨(hs.armedSub hn x hx'.2).1, ?_⟩
        show x ∉ id :: busy s
        simp only [List.mem_cons, not_or]
        exact ⟨hx'.1, (hs.armedSub hn x hx'.2).2⟩
      · simp only [refs, List.map_cons, List.sum_cons, refFrame] at hc ⊢
        omega
  | ret =>
    simp only [step] at hst
    split at hst
    · cases hst; exact h
    · rename_i id fs hq
      obtain ⟨hse, hid⟩ := shape_erase hs hq (.inl rfl)
      have hl := erase_len hid
      simp only [refs, hq, List.map_cons, List.sum_cons, refFrame] at hc
      unfold trigEnd at hst
      split at hst
      · cases hst
      · rename_i hd
        simp only [Bool.not_eq_true] at hd
        simp only [eraseTimer] at hst
        cases b with
        | ev =>
          cases hst
          refine inv_mk (shape_proc hse _) ?_ ha
          simp only [refs, mult, List.map_cons, List.sum_cons, refFrame] at hc ⊢
          simp only [reduceCtorEq, if_false] at hc
          omega
        | asio =>
          cases hst
          refine inv_mk (shape_proc hse _) ?_ ha
          simp only [refs, mult, List.map_cons, List.sum_cons, refFrame] at hc ⊢
          simp only [if_true] at hc
          omega
        | wx =>
          simp only at hst
          split at hst
          · cases hst
          · rename_i u hu
            split at hst
            · cases hst
            · cases hst
              have hi := release_inv (b := .wx) (s := { s with stack := fs, timers := s.timers.erase id }) hse (by
                simp only [refs, mult] at hc ⊢
                simp only [reduceCtorEq, if_false] at hc
                omega) hu
              refine inv_mk (shape_proc hi.shape _) ?_ hi.alive
              have := hi.cnt
              simp only [refs, List.map_cons, List.sum_cons, refFrame] at this ⊢
              omega
        | fltk =>
          simp only at hst
          split at hst
          · cases hst
          · rename_i u hu
            split at hst
            · cases hst
            · rename_i hud
              -- two references
              have hrc : s.rc ≠ 0 := by rw [hd] at ha; simpa using ha.symm
              simp only [mult] at hc
              simp only [reduceCtorEq, if_false] at hc
              unfold release at hu
              rw [if_neg (by simp [hd, hrc])] at hu
              rw [if_neg (by simp only; omega)] at hu
              cases hu
              refine hrel hst (hse.of rfl rfl rfl) ?_
              simp only [refs, mult]
              omega
    · rename_i id fs hq
      obtain ⟨hse, hid⟩ := shape_erase hs hq (.inr rfl)
      have hl := erase_len hid
      simp only [refs, hq, List.map_cons, List.sum_cons, refFrame] at hc
      split at hst
      · cases hst
      · rename_i hd
        simp only [Bool.not_eq_true] at hd
        simp only [cancelEnd, eraseTimer] at hst
        cases b with
        | ev =>
          simp only at hst
          refine hrel hst hse ?_
          simp only [refs, mult] at hc ⊢
          omega
        | asio =>
          cases hst
          refine inv_mk hse ?_ ha
          simp only [refs, mult] at hc ⊢
          omega
        | wx =>
          simp only at hst
          split at hst
          · cases hst
          · rename_i u hu
            cases hst
            exact hrel hu hse (by simp only [refs, mult] at hc ⊢; omega)
        | fltk =>
          simp only at hst
          split at hst
          · cases hst
          · rename_i u hu
            have hrc : s.rc ≠ 0 := by rw [hd] at ha; simpa using ha.symm
            simp only [mult] at hc
            unfold release at hu
            rw [if_neg (by simp [hd, hrc])] at hu
            rw [if_neg (by simp only; omega)] at hu
            cases hu
            refine hrel hst (hse.of rfl rfl rfl) ?_
            simp only [refs, mult]
            omega
    · rename_i f fs hq
      have hsu := shape_unproc hs hq
      simp only [refs, hq, List.map_cons, List.sum_cons] at hc
      have hrelf : refFrame b (.proc f) = 1 → release { s with stack := fs } = .ok t → Inv b t := by
        intro h1 h2
        refine hrel h2 hsu ?_
        simp only [refs]
        omega
      have hnon : refFrame b (.proc f) = 0 → Inv b { s with stack := fs } := by
        intro h1
        refine inv_mk hsu ?_ ha
        simp only [refs]
        omega
      unfold procEnd at hst
      cases f <;> simp only at hst
      · split at hst
        · cases hst
        · exact hrelf rfl hst
      · cases hst; exact hnon rfl
      · split at hst
        · cases hst
        · exact hrelf rfl hst
      · split at hst <;> cases hst
        exact hnon rfl
      · split at hst <;> cases hst
        exact hnon rfl
      · cases hst; exact hnon rfl
  | fire id =>
    simp only [step] at hst
    split at hst
    · cases hst; exact h
    · rename_i hq
      simp only [ne_eq, Decidable.not_not] at hq
      have hb0 : busy s = [] := by unfold busy; rw [hq]; rfl
      have common : b ≠ .asio → (if id ∉ s.armed then Except.ok s else if s.dead = true then Except.error Fault.timer
          else Except.ok { s with armed := s.armed.erase id, stack := [.trig id] }) = .ok t → Inv b t := by
        intro hn hst
        split at hst
        · cases hst; exact h
        · rename_i hm
          simp only [Decidable.not_not] at hm
          split at hst
          · cases hst
          · cases hst
            refine inv_mk ⟨hs.nodup, ?_, ?_, fun hn => (hs.armedNodup hn).erase _, ?_⟩ ?_ ha
            · simp [busy]
            · intro x hx
              simp only [busy, List.filterMap_cons, List.filterMap_nil, List.mem_singleton] at hx
              rw [hx]; exact (hs.armedSub hn id hm).1
            · intro _ x hx
              have hx' : x ∈ s.armed.erase id := hx
              rw [(hs.armedNodup hn).mem_erase_iff] at hx'
              refine ⟨(hs.armedSub hn x hx'.2).1, ?_⟩
              simp only [busy, List.filterMap_cons, List.filterMap_nil, List.mem_singleton]
              exact hx'.1
            · simp only [refs, hq, List.map_nil, List.sum_nil, List.map_cons, List.sum_cons, refFrame, if_neg hn] at hc ⊢
              omega
      cases b with
      | ev => exact common (by simp) hst
      | fltk => exact common (by simp) hst
      | wx => exact common (by simp) hst
      | asio =>
        simp only at hst
        split at hst
        · cases hst; exact h
        · rename_i hm
          simp only [Decidable.not_not] at hm
          have hl := erase_len hm
          split at hst
          · cases hst
          · split at hst
            · rename_i hid
              cases hst
              refine inv_mk ⟨hs.nodup, by simp [busy], ?_, fun hn => absurd rfl hn, fun hn => absurd rfl hn⟩ ?_ ha
              · intro x hx
                simp only [busy, List.filterMap_cons, List.filterMap_nil, List.mem_singleton] at hx
                rw [hx]; exact hid
              · simp only [refs, hq, List.map_nil, List.sum_nil, List.map_cons, List.sum_cons, refFrame, if_true] at hc ⊢
                omega
            · refine hrel hst (hs.of rfl rfl rfl) ?_
              simp only [refs] at hc ⊢
              omega
  | complete id err =>
    simp only [step] at hst
    split at hst
    · rename_i hm
      obtain ⟨rfl, hm⟩ := hm
      have hl := erase_len hm
      split at hst
      · cases hst
      · split at hst
        · refine hrel hst (hs.of rfl rfl rfl) ?_
          simp only [refs] at hc ⊢
          omega
        · cases hst
          refine inv_mk ⟨hs.nodup, hs.busyNodup, hs.busySub, fun hn => absurd rfl hn, fun hn => absurd rfl hn⟩ ?_ ha
          simp only [refs, List.length_cons] at hc ⊢
          omega
    · cases hst; exact h
  | post =>
    simp only [step] at hst
    split at hst
    · cases hst; exact h
    · rename_i hd
      simp only [Bool.not_eq_true] at hd
      have htask : Inv b (addRef { s with tasks := s.tasks + 1 }) := by
        refine inv_mk (hs.of rfl rfl rfl) ?_ ?_
        · simp only [addRef, refs] at hc ⊢; omega
        · simp [addRef, hd]
      unfold post at hst
      cases b <;> simp only at hst
      · cases hst; exact inv_mk (hs.of rfl rfl rfl) hc ha
      · split at hst
        · cases hst; exact inv_mk (hs.of rfl rfl rfl) hc ha
        · cases hst; exact htask
      · cases hst; exact htask
      · cases hst; exact htask
  | runTask =>
    simp only [step] at hst
    split at hst
    · cases hst; exact h
    · rename_i hg
      simp only [ne_eq, not_or, Decidable.not_not] at hg
      split at hst
      · cases hst
      · cases hst
        refine inv_mk (hs.of rfl rfl (by simp [busy, hg.1])) ?_ ha
        simp only [refs, hg.1, List.map_nil, List.sum_nil, List.map_cons, List.sum_cons, refFrame] at hc ⊢
        omega
  | async =>
    simp only [step] at hst
    split at hst
    · cases hst; exact h
    · rename_i hg
      simp only [ne_eq, not_or, Decidable.not_not] at hg
      split at hst
      · cases hst
      · cases hst
        refine inv_mk (hs.of rfl rfl (by simp [busy, hg.2.1])) ?_ ha
        simp only [refs, hg.2.1, List.map_nil, List.sum_nil, List.map_cons, List.sum_cons, refFrame] at hc ⊢
        omega
  | callback =>
    simp only [step] at hst
    split at hst
    · cases hst; exact h
    · rename_i hg
      simp only [ne_eq, not_or, Decidable.not_not] at hg
      split at hst
      · cases hst
      · cases hst
        refine inv_mk (hs.of rfl rfl (by simp [busy, hg.1])) ?_ ha
        simp only [refs, hg.1, List.map_nil, List.sum_nil, List.map_cons, List.sum_cons, refFrame] at hc ⊢
        omega
  | process =>
    simp only [step] at hst
    split at hst
    · cases hst; exact h
    · cases hst
      refine inv_mk (shape_proc hs _) ?_ ha
      simp only [refs, List.map_cons, List.sum_cons, refFrame] at hc ⊢
      omega
  | finish =>
    simp only [step] at hst
    split at hst
    · cases hst; exact h
    · cases hst; exact inv_mk (hs.of rfl rfl rfl) hc ha

theorem inv_run {b : Backend} {os : List (Op × Bool)} : ∀ {s t : State}, Inv b s → run b s os = .ok t → Inv b t := by
  induction os with
  | nil => intro s t h hr; cases hr; exact h
  | cons o os ih =>
    intro s t h hr
    obtain ⟨o, raw⟩ := o
    simp only [run] at hr
    split at hr
    · cases hr
    · rename_i u hu
      exact ih (inv_step h hu) hr

theorem release_err {s : State} {f : Fault} (h : release s = .error f) : s.dead = true ∨ s.rc = 0 := by
  unfold release at h
  split at h
  · rename_i hc; exact hc
  · split at h <;> cases h

theorem Inv.dead_zero {b : Backend} {s : State} (h : Inv b s) (hd : s.dead = true) : s.ext = 0 ∧ refs b s = 0 := by
  have h1 := h.alive
  rw [hd] at h1
  have h2 : s.rc = 0 := by simpa using h1.symm
  have := h.cnt
  omega

theorem Inv.alive_of {b : Backend} {s : State} (h : Inv b s) (hr : s.rc ≠ 0) : s.dead = false := by
  rw [h.alive]; simpa using hr

/-- the supervisor of `wx` and `asio` has other references as long as it has timers -/
def Kept (b : Backend) (s : State) : Prop := (b = .wx ∨ b = .asio) → s.timers ≠ [] → s.ext ≠ 0

theorem fault_step {b : Backend} {raw : Bool} {s : State} {o : Op} {f : Fault} (h : Inv b s) (hk : Kept b s) (hst : step b raw s o = .error f) :
    (f = .async ∧ s.dead = true ∧ ((o = .async ∧ b = .ev ∧ s.watching = true) ∨ .proc .async ∈ s.stack)) ∨
      (f = .raw ∧ s.dead = true ∧ (s.raws ≠ 0 ∨ .proc .raw ∈ s.stack)) := by
  have hc := h.cnt
  have hz := h.dead_zero
  have ha := h.alive_of
  cases o with
  | hold => simp only [step] at hst; split at hst <;> cases hst
  | drop =>
    simp only [step] at hst
    split at hst
    · cases hst
    · have hr : s.rc ≠ 0 := by omega
      rcases release_err hst with h1 | h1
      · rw [show ({ s with ext := s.ext - 1 } : State).dead = s.dead from rfl, ha hr] at h1; cases h1
      · exact absurd h1 hr
  | start id => simp only [step] at hst; split at hst <;> cases hst
  | cancel id => simp only [step] at hst; split at hst <;> cases hst
  | ret =>
    simp only [step] at hst
    split at hst
    · cases hst
    · rename_i id fs hq
      exfalso
      obtain ⟨hse, hid⟩ := shape_erase h.shape hq (.inl rfl)
      have hl := erase_len hid
      have hne : s.timers ≠ [] := fun hc => by rw [hc] at hid; cases hid
      simp only [refs, hq, List.map_cons, List.sum_cons, refFrame] at hc
      have hr : s.rc ≠ 0 := by
        cases b <;> simp [mult] at hc <;> omega
      have hd := ha hr
      unfold trigEnd at hst
      rw [if_neg (by simp [hd])] at hst
      simp only [eraseTimer] at hst
      cases b with
      | ev => cases hst
      | asio => cases hst
      | wx =>
        have he := hk (.inl rfl) hne
        simp only [mult] at hc
        simp only [reduceCtorEq, if_false] at hc
        unfold release at hst
        rw [if_neg (by simp only [not_or]; exact ⟨by simp [hd], hr⟩)] at hst
        rw [if_neg (by simp only; omega)] at hst
        simp [hd] at hst
      | fltk =>
        simp only [mult] at hc
        simp only [reduceCtorEq, if_false] at hc
        simp only [release] at hst
        rw [if_neg (by simp only [not_or]; exact ⟨by simp [hd], hr⟩)] at hst
        rw [if_neg (by omega)] at hst
        simp only [hd] at hst
        rw [if_neg (by simp)] at hst
        rw [if_neg (by simp only [not_or]; exact ⟨by simp, by omega⟩)] at hst
        split at hst <;> cases hst
    · rename_i id fs hq
      exfalso
      obtain ⟨hse, hid⟩ := shape_erase h.shape hq (.inr rfl)
      have hl := erase_len hid
      have hne : s.timers ≠ [] := fun hc => by rw [hc] at hid; cases hid
      simp only [refs, hq, List.map_cons, List.sum_cons, refFrame] at hc
      have hr : s.rc ≠ 0 := by
        cases b <;> simp [mult] at hc
        · omega
        · omega
        · omega
        · have := hk (.inr rfl) hne; omega
      have hd := ha hr
      rw [if_neg (by simp [hd])] at hst
      simp only [cancelEnd, eraseTimer] at hst
      cases b with
      | ev =>
        simp only at hst
        rcases release_err hst with h1 | h1
        · rw [show ({ s with stack := fs, timers := s.timers.erase id } : State).dead = s.dead from rfl, hd] at h1; cases h1
        · exact absurd h1 hr
      | asio => cases hst
      | wx =>
        simp only at hst
        split at hst
        · rename_i e
          rcases release_err e with h1 | h1
          · rw [show ({ s with stack := fs, timers := s.timers.erase id } : State).dead = s.dead from rfl, hd] at h1; cases h1
          · exact absurd h1 hr
        · cases hst
      | fltk =>
        simp only [mult] at hc
        simp only [release] at hst
        rw [if_neg (by simp only [not_or]; exact ⟨by simp [hd], hr⟩)] at hst
        rw [if_neg (by omega)] at hst
        simp only [hd] at hst
        rw [if_neg (by simp only [not_or]; exact ⟨by simp, by omega⟩)] at hst
        split at hst <;> cases hst
    · rename_i g fs hq
      simp only [refs, hq, List.map_cons, List.sum_cons] at hc
      have held : refFrame b (.proc g) = 1 → s.dead = false ∧ s.rc ≠ 0 := fun h1 => ⟨ha (by omega), by omega⟩
      unfold procEnd at hst
      cases g <;> simp only at hst
      · obtain ⟨h1, h2⟩ := held rfl
        rw [if_neg (by simp [h1])] at hst
        rcases release_err hst with h3 | h3
        · rw [show ({ s with stack := fs } : State).dead = s.dead from rfl, h1] at h3; cases h3
        · exact absurd h3 h2
      · cases hst
      · obtain ⟨h1, h2⟩ := held rfl
        rw [if_neg (by simp [h1])] at hst
        rcases release_err hst with h3 | h3
        · rw [show ({ s with stack := fs } : State).dead = s.dead from rfl, h1] at h3; cases h3
        · exact absurd h3 h2
      · split at hst <;> cases hst
        rename_i hd
        exact .inl ⟨rfl, hd, .inr (by rw [hq]; exact List.mem_cons_self)⟩
      · split at hst <;> cases hst
        rename_i hd
        exact .inr ⟨rfl, hd, .inr (by rw [hq]; exact List.mem_cons_self)⟩
      · cases hst
  | fire id =>
    simp only [step] at hst
    split at hst
    · cases hst
    · have common : b ≠ .asio → (if id ∉ s.armed then Except.ok s else if s.dead = true then Except.error Fault.timer
          else Except.ok { s with armed := s.armed.erase id, stack := [.trig id] }) = .error f → False := by
        intro hn hst
        split at hst
        · cases hst
        · rename_i hm
          simp only [Decidable.not_not] at hm
          have hid := (h.armedSub hn id hm).1
          have hl := List.length_pos_of_mem hid
          have hr : s.rc ≠ 0 := by
            simp only [refs] at hc
            cases b <;> simp [mult] at hc <;> first | omega | exact absurd rfl hn
          rw [if_neg (by simp [ha hr])] at hst
          cases hst
      exfalso
      cases b with
      | ev => exact common (by simp) hst
      | fltk => exact common (by simp) hst
      | wx => exact common (by simp) hst
      | asio =>
        simp only at hst
        split at hst
        · cases hst
        · rename_i hm
          simp only [Decidable.not_not] at hm
          have hl := List.length_pos_of_mem hm
          have hr : s.rc ≠ 0 := by simp only [refs] at hc; omega
          rw [if_neg (by simp [ha hr])] at hst
          split at hst
          · cases hst
          · rcases release_err hst with h3 | h3
            · rw [show ({ s with defers := s.defers.erase id } : State).dead = s.dead from rfl, ha hr] at h3; cases h3
            · exact absurd h3 hr
  | complete id err =>
    exfalso
    simp only [step] at hst
    split at hst
    · rename_i hm
      have hl := List.length_pos_of_mem hm.2
      have hr : s.rc ≠ 0 := by simp only [refs] at hc; omega
      rw [if_neg (by simp [ha hr])] at hst
      split at hst
      · rcases release_err hst with h3 | h3
        · rw [show ({ s with waits := s.waits.erase id } : State).dead = s.dead from rfl, ha hr] at h3; cases h3
        · exact absurd h3 hr
      · cases hst
    · cases hst
  | post => simp only [step] at hst; split at hst <;> cases hst
  | runTask =>
    exfalso
    simp only [step] at hst
    split at hst
    · cases hst
    · rename_i hg
      have hr : s.rc ≠ 0 := by simp only [not_or] at hg; simp only [refs] at hc; omega
      rw [if_neg (by simp [ha hr])] at hst
      cases hst
  | async =>
    simp only [step] at hst
    split at hst
    · cases hst
    · rename_i hg
      split at hst <;> cases hst
      rename_i hd
      simp only [ne_eq, not_or, Decidable.not_not, Bool.not_eq_false] at hg
      exact .inl ⟨rfl, hd, .inl ⟨rfl, hg.1, hg.2.2.1⟩⟩
  | callback =>
    simp only [step] at hst
    split at hst
    · cases hst
    · rename_i hg
      split at hst <;> cases hst
      rename_i hd
      exact .inr ⟨rfl, hd, .inl (fun h0 => hg (.inr h0))⟩
  | process => simp only [step] at hst; split at hst <;> cases hst
  | finish => simp only [step] at hst; split at hst <;> cases hst

/-- **C68, the counter.** For every backend and every execution the counter of the supervisor is the number of references to it: those held elsewhere,
and those of the event loop: its timers, its closures and its callbacks under way. It is destroyed exactly when there are none. -/
theorem C68_counter {b : Backend} {os : List (Op × Bool)} {s : State} (h : run b .init os = .ok s) :
    s.rc = s.ext + refs b s ∧ (s.dead = true ↔ s.ext = 0 ∧ refs b s = 0) := by
  have hi := inv_run (inv_init b) h
  refine ⟨hi.cnt, hi.dead_zero, fun h0 => ?_⟩
  have h1 := hi.alive
  have := hi.cnt
  rw [h1]
  simp only [decide_eq_true_eq]
  omega

/-- **C68, no leak.** When the event loop has nothing left for the supervisor, nobody else refers to it and its code is not running, it is destroyed. -/
theorem C68_no_leak {b : Backend} {os : List (Op × Bool)} {s : State} (h : run b .init os = .ok s) (ht : s.timers = []) (hw : s.waits = [])
    (hf : s.defers = []) (hk : s.tasks = 0) (hs : s.stack = []) (he : s.ext = 0) : s.dead = true :=
  (C68_counter h).2.2 ⟨he, by simp [refs, ht, hw, hf, hk, hs]⟩

/-- **C68, pending work keeps the supervisor.** As long as there is a timer (libev, FLTK, wx), a completion or a closure, the supervisor exists. -/
theorem C68_pending_keeps {b : Backend} {os : List (Op × Bool)} {s : State} (h : run b .init os = .ok s)
    (hp : (b ≠ .asio ∧ s.timers ≠ []) ∨ s.waits ≠ [] ∨ s.defers ≠ [] ∨ s.tasks ≠ 0) : s.dead = false := by
  cases hd : s.dead
  · rfl
  · exfalso
    have h0 := ((C68_counter h).2.1 hd).2
    simp only [refs] at h0
    rcases hp with ⟨h1, h2⟩ | h1 | h1 | h1
    · have := List.length_pos_iff.2 h2
      cases b <;> simp only [mult] at h0 <;> first | exact h1 rfl | omega
    · have := List.length_pos_iff.2 h1; omega
    · have := List.length_pos_iff.2 h1; omega
    · omega

/-- **C68, libev and FLTK: timers and closures.** Whatever the callbacks do, no timer and no closure uses a destroyed supervisor, and no reference is
released twice; what may fail is the watcher of libev and the callback for messages of FLTK, which have no reference. -/
theorem C68_timers_safe {b : Backend} (hb : b = .ev ∨ b = .fltk) {os : List (Op × Bool)} {f : Fault} (h : run b .init os = .error f) :
    f = .async ∨ f = .raw := by
  have key : ∀ (os : List (Op × Bool)) (s : State), Inv b s → run b s os = .error f → f = .async ∨ f = .raw := by
    intro os
    induction os with
    | nil => intro s _ hr; cases hr
    | cons o os ih =>
      intro s hi hr
      obtain ⟨o, raw⟩ := o
      simp only [run] at hr
      split at hr
      · rename_i g hg
        cases hr
        rcases fault_step hi (by rintro (h | h) <;> rcases hb with h' | h' <;> rw [h] at h' <;> cases h') hg with h | h
        · exact .inl h.1
        · exact .inr h.1
      · rename_i u hu
        exact ih u (inv_step hi hu) hr
  exact key os _ (inv_init b) h

/-- when the last reference held elsewhere may be given up: for wx and asio not before the timers are gone; libev: not before `shutdown_finish`, nor
while the watcher's callback runs; FLTK: not while a callback for messages is pending or runs. Without such a reference nobody starts timers (wx,
asio) or sends messages (FLTK) -/
def polite (b : Backend) (raw : Bool) (s : State) : Op → Prop
  | .drop => s.ext = 1 → ((b = .wx ∨ b = .asio) → s.timers = []) ∧ (b = .ev → s.watching = false) ∧ .proc .async ∉ s.stack ∧ s.raws = 0 ∧
      .proc .raw ∉ s.stack
  | .start _ => (b = .wx ∨ b = .asio) → s.ext ≠ 0
  | .post => b = .fltk → raw = true → s.ext ≠ 0
  | _ => True

def Polite (b : Backend) (s : State) : List (Op × Bool) → Prop
  | [] => True
  | (o, raw) :: os => polite b raw s o ∧ ∀ t, step b raw s o = .ok t → Polite b t os

/-- what holds when nobody else refers to the supervisor -/
def Quiet (b : Backend) (s : State) : Prop :=
  s.ext = 0 → ((b = .wx ∨ b = .asio) → s.timers = []) ∧ (b = .ev → s.watching = false) ∧ .proc .async ∉ s.stack ∧ s.raws = 0 ∧
      .proc .raw ∉ s.stack

theorem release_same {s t : State} (h : release s = .ok t) : t.ext = s.ext ∧ t.timers = s.timers ∧ t.watching = s.watching ∧ t.stack = s.stack ∧
    t.raws = s.raws := by
  unfold release at h
  split at h
  · cases h
  · split at h <;> cases h <;> exact ⟨rfl, rfl, rfl, rfl, rfl⟩

theorem Quiet.of {b : Backend} {s t : State} (h : Quiet b s) (h1 : t.ext = 0 → s.ext = 0) (h2 : ∀ x ∈ t.timers, x ∈ s.timers)
    (h3 : t.watching = true → s.watching = true) (h4 : ∀ f ∈ t.stack, f ∈ s.stack ∨ (f ≠ .proc .async ∧ f ≠ .proc .raw)) (h5 : t.raws ≤ s.raws) :
    Quiet b t := by
  intro h0
  obtain ⟨a1, a2, a3, a4, a5⟩ := h (h1 h0)
  refine ⟨fun hb => ?_, fun hb => ?_, fun hm => ?_, by omega, fun hm => ?_⟩
  · rw [List.eq_nil_iff_forall_not_mem]
    intro x hx
    have := h2 x hx
    rw [a1 hb] at this
    cases this
  · cases hw : t.watching
    · rfl
    · have := h3 hw
      rw [a2 hb] at this
      cases this
  · rcases h4 _ hm with h | h
    · exact a3 h
    · exact h.1 rfl
  · rcases h4 _ hm with h | h
    · exact a5 h
    · exact h.2 rfl

theorem quiet_step {b : Backend} {raw : Bool} {s t : State} {o : Op} (h : Quiet b s) (hp : polite b raw s o) (hst : step b raw s o = .ok t) :
    Quiet b t := by
  have same : ∀ {u : State}, u.stack = s.stack ∨ (∃ f, s.stack = f :: u.stack) → ∀ f ∈ u.stack, f ∈ s.stack ∨ (f ≠ .proc .async ∧ f ≠ .proc .raw) := by
    rintro u (h | ⟨g, h⟩) f hf
    · exact .inl (h ▸ hf)
    · exact .inl (by rw [h]; exact List.mem_cons_of_mem _ hf)
  have push : ∀ {u : State} {g : Frame}, g ≠ .proc .async → g ≠ .proc .raw → u.stack = g :: s.stack ∨ u.stack = [g] →
      ∀ f ∈ u.stack, f ∈ s.stack ∨ (f ≠ .proc .async ∧ f ≠ .proc .raw) := by
    rintro u g h1 h2 (h | h) f hf
    · rw [h] at hf
      rcases List.mem_cons.1 hf with rfl | hf
      · exact .inr ⟨h1, h2⟩
      · exact .inl hf
    · rw [h, List.mem_singleton] at hf
      exact .inr ⟨hf ▸ h1, hf ▸ h2⟩
  cases o with
  | hold =>
    simp only [step] at hst
    split at hst <;> cases hst
    · exact h
    · intro h0; exact absurd h0 (by simp [addRef])
  | drop =>
    simp only [step] at hst
    split at hst
    · cases hst; exact h
    · rename_i hne
      obtain ⟨e1, e2, e3, e4, e5⟩ := release_same hst
      intro h0
      have h1 : s.ext = 1 := by rw [e1] at h0; simp only at h0; omega
      have := hp h1
      rw [e2, e3, e4, e5]
      exact this
  | start id =>
    simp only [step] at hst
    split at hst
    · cases hst; exact h
    · cases hst
      simp only [polite] at hp
      intro h0
      cases b with
      | ev =>
        have h0' : s.ext = 0 := h0
        have := h h0'
        exact ⟨fun hc => absurd hc (by simp), this.2⟩
      | fltk =>
        have h0' : s.ext = 0 := h0
        have := h h0'
        exact ⟨fun hc => absurd hc (by simp), this.2⟩
      | wx => exact absurd (show s.ext = 0 from h0) (hp (by simp))
      | asio => exact absurd (show s.ext = 0 from h0) (hp (by simp))
  | cancel id =>
    simp only [step] at hst
    split at hst
    · cases hst; exact h
    · cases hst
      exact h.of (fun h => h) (fun _ h => h) (fun h => h) (push (by simp) (by simp) (.inl rfl)) (Nat.le_refl _)
  | ret =>
    simp only [step] at hst
    split at hst
    · cases hst; exact h
    · rename_i id fs hq
      have base : Quiet b { s with stack := fs, timers := s.timers.erase id } :=
        h.of (fun h => h) (fun _ h => List.mem_of_mem_erase h) (fun h => h) (same (.inr ⟨_, hq⟩)) (Nat.le_refl _)
      have rel : ∀ {u v : State}, Quiet b u → release u = .ok v → Quiet b v := by
        intro u v hu hr
        obtain ⟨e1, e2, e3, e4, e5⟩ := release_same hr
        intro h0
        have := hu (e1 ▸ h0)
        rw [e2, e3, e4, e5]
        exact this
      have proc : ∀ {u : State} {g : From}, g ≠ .async → g ≠ .raw → Quiet b u → Quiet b { u with stack := .proc g :: u.stack } := by
        intro u g h1 h2 hu
        refine hu.of (fun h => h) (fun _ h => h) (fun h => h) ?_ (Nat.le_refl _)
        intro f hf
        rcases List.mem_cons.1 hf with rfl | hf
        · exact .inr ⟨by simpa using h1, by simpa using h2⟩
        · exact .inl hf
      unfold trigEnd at hst
      split at hst
      · cases hst
      · simp only [eraseTimer] at hst
        cases b with
        | ev => cases hst; exact proc (by simp) (by simp) base
        | asio => cases hst; exact proc (by simp) (by simp) base
        | wx =>
          simp only at hst
          split at hst
          · cases hst
          · rename_i u hu
            split at hst <;> cases hst
            exact proc (by simp) (by simp) (rel base hu)
        | fltk =>
          simp only at hst
          split at hst
          · cases hst
          · rename_i u hu
            split at hst
            · cases hst
            · exact rel (rel base hu) hst
    · rename_i id fs hq
      have base : Quiet b { s with stack := fs, timers := s.timers.erase id } :=
        h.of (fun h => h) (fun _ h => List.mem_of_mem_erase h) (fun h => h) (same (.inr ⟨_, hq⟩)) (Nat.le_refl _)
      have rel : ∀ {u v : State}, Quiet b u → release u = .ok v → Quiet b v := by
        intro u v hu hr
        obtain ⟨e1, e2, e3, e4, e5⟩ := release_same hr
        intro h0
        have := hu (e1 ▸ h0)
        rw [e2, e3, e4, e5]
        exact this
      split at hst
      · cases hst
      · simp only [cancelEnd, eraseTimer] at hst
        cases b with
        | ev => simp only at hst; exact rel base hst
        | asio => cases hst; exact base
        | wx =>
          simp only at hst
          split at hst
          · cases hst
          · rename_i u hu
            cases hst
            exact rel base hu
        | fltk =>
          simp only at hst
          split at hst
          · cases hst
          · rename_i u hu
            exact rel (rel base hu) hst
    · rename_i g fs hq
      have base : Quiet b { s with stack := fs } :=
        h.of (fun h => h) (fun _ h => h) (fun h => h) (same (.inr ⟨_, hq⟩)) (Nat.le_refl _)
      have rel : release { s with stack := fs } = .ok t → Quiet b t := by
        intro hr
        obtain ⟨e1, e2, e3, e4, e5⟩ := release_same hr
        intro h0
        have := base (e1 ▸ h0)
        rw [e2, e3, e4, e5]
        exact this
      unfold procEnd at hst
      cases g <;> simp only at hst
      · split at hst
        · cases hst
        · exact rel hst
      · cases hst; exact base
      · split at hst
        · cases hst
        · exact rel hst
      · split at hst <;> cases hst; exact base
      · split at hst <;> cases hst; exact base
      · cases hst; exact base
  | fire id =>
    simp only [step] at hst
    split at hst
    · cases hst; exact h
    · have common : (if id ∉ s.armed then Except.ok s else if s.dead = true then Except.error Fault.timer
          else Except.ok { s with armed := s.armed.erase id, stack := [.trig id] }) = .ok t → Quiet b t := by
        intro hst
        split at hst
        · cases hst; exact h
        · split at hst <;> cases hst
          exact h.of (fun h => h) (fun _ h => h) (fun h => h) (push (by simp) (by simp) (.inr rfl)) (Nat.le_refl _)
      cases b with
      | ev => exact common hst
      | fltk => exact common hst
      | wx => exact common hst
      | asio =>
        simp only at hst
        split at hst
        · cases hst; exact h
        · split at hst
          · cases hst
          · split at hst
            · cases hst
              exact h.of (fun h => h) (fun _ h => h) (fun h => h) (push (by simp) (by simp) (.inr rfl)) (Nat.le_refl _)
            · obtain ⟨e1, e2, e3, e4, e5⟩ := release_same hst
              intro h0
              have := h (by rw [e1] at h0; exact h0)
              rw [e2, e3, e4, e5]
              exact this
  | complete id err =>
    simp only [step] at hst
    split at hst
    · split at hst
      · cases hst
      · split at hst
        · obtain ⟨e1, e2, e3, e4, e5⟩ := release_same hst
          intro h0
          have := h (by rw [e1] at h0; exact h0)
          rw [e2, e3, e4, e5]
          exact this
        · cases hst
          exact h.of (fun h => h) (fun _ h => h) (fun h => h) (same (.inl rfl)) (Nat.le_refl _)
    · cases hst; exact h
  | post =>
    simp only [step] at hst
    split at hst
    · cases hst; exact h
    · have plain : ∀ {u : State}, u.ext = s.ext → u.timers = s.timers → u.watching = s.watching → u.stack = s.stack → u.raws = s.raws → Quiet b u :=
        fun h1 h2 h3 h4 h5 => h.of (fun h => h1 ▸ h) (fun _ h => h2 ▸ h) (fun h => h3 ▸ h) (same (.inl h4)) (by omega)
      unfold post at hst
      cases b <;> simp only at hst
      · cases hst; exact plain rfl rfl rfl rfl rfl
      · split at hst
        · rename_i hr
          cases hst
          intro h0
          exact absurd (show s.ext = 0 from h0) (hp rfl hr)
        · cases hst; exact plain rfl rfl rfl rfl rfl
      · cases hst; exact plain rfl rfl rfl rfl rfl
      · cases hst; exact plain rfl rfl rfl rfl rfl
  | runTask =>
    simp only [step] at hst
    split at hst
    · cases hst; exact h
    · split at hst <;> cases hst
      exact h.of (fun h => h) (fun _ h => h) (fun h => h) (push (by simp) (by simp) (.inr rfl)) (Nat.le_refl _)
  | async =>
    simp only [step] at hst
    split at hst
    · cases hst; exact h
    · rename_i hg
      split at hst <;> cases hst
      simp only [ne_eq, not_or, Decidable.not_not, Bool.not_eq_false] at hg
      intro h0
      have := (h (show s.ext = 0 from h0)).2.1 hg.1
      rw [hg.2.2.1] at this
      cases this
  | callback =>
    simp only [step] at hst
    split at hst
    · cases hst; exact h
    · rename_i hg
      split at hst <;> cases hst
      intro h0
      exact absurd (.inr (h (show s.ext = 0 from h0)).2.2.2.1) hg
  | process =>
    simp only [step] at hst
    split at hst
    · cases hst; exact h
    · cases hst
      exact h.of (fun h => h) (fun _ h => h) (fun h => h) (push (by simp) (by simp) (.inl rfl)) (Nat.le_refl _)
  | finish =>
    simp only [step] at hst
    split at hst
    · cases hst; exact h
    · cases hst
      exact h.of (fun h => h) (fun _ h => h) (fun h => by cases h) (same (.inl rfl)) (Nat.le_refl _)

/-- **C68, nothing uses a destroyed supervisor (partial).** Missing: executions in which the last reference held elsewhere is given up too early, see the
counterexamples. -/
theorem C68_no_use_after_free_partial {b : Backend} {os : List (Op × Bool)} (hp : Polite b .init os) : ∃ s, run b .init os = .ok s := by
  have key : ∀ (os : List (Op × Bool)) (s : State), Inv b s → Quiet b s → Polite b s os → ∃ t, run b s os = .ok t := by
    intro os
    induction os with
    | nil => intro s _ _ _; exact ⟨s, rfl⟩
    | cons o os ih =>
      intro s hi hq hp
      obtain ⟨o, raw⟩ := o
      cases hst : step b raw s o with
      | ok u =>
        simp only [run, hst]
        exact ih u (inv_step hi hst) (quiet_step hq hp.1 hst) (hp.2 u hst)
      | error f =>
        exfalso
        rcases fault_step hi (fun hb ht he => ht ((hq he).1 hb)) hst with ⟨_, hd, h⟩ | ⟨_, hd, h⟩
        · obtain ⟨q1, q2, q3, q4, q5⟩ := hq (hi.dead_zero hd).1
          rcases h with ⟨_, h1, h2⟩ | h
          · rw [q2 h1] at h2; cases h2
          · exact q3 h
        · obtain ⟨q1, q2, q3, q4, q5⟩ := hq (hi.dead_zero hd).1
          rcases h with h | h
          · exact h q4
          · exact q5 h
  refine key os _ (inv_init b) ?_ hp
  intro h0
  exact absurd h0 (by simp [State.init])

/-- the outcome of an execution without messages of FLTK -/
def faulty (b : Backend) (os : List (Op × Bool)) (f : Fault) : Bool :=
  match run b .init os with
  | .error g => decide (g = f)
  | .ok _ => false

def fine (b : Backend) (os : List (Op × Bool)) (p : State → Bool) : Bool :=
  match run b .init os with
  | .error _ => false
  | .ok s => p s

def quiet (os : List Op) : List (Op × Bool) := os.map (fun o => (o, false))

/-- **C68, libev, a supervisor that ends in its own `on_async`.** A message from another thread for a nested supervisor wakes it up; while it processes
the queue of the locality it shuts down and its parent drops it. Back in `on_async` a member of the destroyed supervisor is read. -/
theorem C68_ev_on_async_counterexample : faulty .ev (quiet [.post, .async, .finish, .drop, .ret]) .async = true := by decide

/-- without the shutdown the loop keeps a watcher of the destroyed supervisor -/
theorem C68_ev_watcher_counterexample : faulty .ev (quiet [.post, .drop, .async]) .async = true := by decide

/-- **C68, FLTK, a system context that ends while a callback for its messages is pending.** -/
theorem C68_fltk_callback_counterexample : faulty .fltk [(.post, true), (.drop, false), (.callback, false)] .raw = true := by decide

/-- **C68, wx, a timer with the last reference.** The timer object is erased, and with it the supervisor, before `do_process` is called. -/
theorem C68_wx_last_timer_counterexample : faulty .wx (quiet [.start 0, .drop, .fire 0, .ret]) .timer = true := by decide

/-- **C68, asio, a cancellation without another reference**: the completion of the timer, in another thread, takes the last one. -/
theorem C68_asio_cancel_counterexample : faulty .asio (quiet [.start 0, .cancel 0, .drop, .complete 0 true, .ret]) .timer = true := by decide

/-- the same executions are harmless where the timer has its own reference -/
example : fine .ev (quiet [.start 0, .finish, .drop, .fire 0, .ret, .ret]) (fun s => decide (s.dead = true ∧ s.rc = 0)) = true := by decide
example : fine .fltk (quiet [.start 0, .drop, .fire 0, .ret]) (fun s => decide (s.dead = true)) = true := by decide

/-- libev: two timers, one is cancelled in the callback of the other; the supervisor ends while it processes messages of a timer -/
def exOps : List (Op × Bool) := quiet [.start 0, .start 1, .hold, .fire 0, .cancel 1, .ret, .drop, .ret, .finish, .drop, .ret]

example : fine .ev (exOps.take 6) (fun s => decide (s.rc = 3 ∧ s.ext = 2 ∧ s.stack = [.trig 0] ∧ s.timers = [0])) = true := by decide
example : fine .ev exOps (fun s => decide (s.dead = true)) = true := by decide
example : fine .ev (exOps.take 10) (fun s => decide (s.dead = false ∧ s.ext = 0 ∧ s.stack = [.proc .timerHeld])) = true := by decide

def politeB (b : Backend) (raw : Bool) (s : State) : Op → Bool
  | .drop => decide (s.ext = 1 → ((b = .wx ∨ b = .asio) → s.timers = []) ∧ (b = .ev → s.watching = false) ∧ .proc .async ∉ s.stack ∧ s.raws = 0 ∧
      .proc .raw ∉ s.stack)
  | .start _ => decide ((b = .wx ∨ b = .asio) → s.ext ≠ 0)
  | .post => decide (b = .fltk → raw = true → s.ext ≠ 0)
  | _ => true

theorem polite_of {b : Backend} {raw : Bool} {s : State} {o : Op} (h : politeB b raw s o = true) : polite b raw s o := by
  cases o <;> simp only [polite] <;> exact of_decide_eq_true h

def PoliteB (b : Backend) (s : State) : List (Op × Bool) → Bool
  | [] => true
  | (o, raw) :: os => politeB b raw s o && (match step b raw s o with | .ok t => PoliteB b t os | .error _ => true)

theorem Polite_of {b : Backend} {os : List (Op × Bool)} : ∀ {s : State}, PoliteB b s os = true → Polite b s os := by
  induction os with
  | nil => intro s _; trivial
  | cons o os ih =>
    intro s h
    obtain ⟨o, raw⟩ := o
    simp only [PoliteB, Bool.and_eq_true] at h
    refine ⟨polite_of h.1, fun t ht => ih ?_⟩
    have := h.2
    rw [ht] at this
    exact this

/-- the execution above meets the restriction; so do a supervisor of wx, and one of FLTK with messages -/
example : Polite .ev .init exOps := Polite_of (by decide)
example : Polite .wx .init (quiet [.post, .runTask, .start 0, .ret, .fire 0, .ret, .finish, .ret, .drop]) := Polite_of (by decide)
example : Polite .fltk .init [(.post, true), (.callback, false), (.start 0, false), (.ret, false), (.drop, false), (.fire 0, false), (.ret, false)] :=
  Polite_of (by decide)

end Verif.SupRefs
