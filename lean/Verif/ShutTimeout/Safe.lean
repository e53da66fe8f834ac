import Verif.ShutTimeout.Step

/-! # No fault if children that are given up keep quiet -/

namespace Verif.ShutTimeout

/-- what is restricted. A timer fires only when the child has got the request, and what it had sent before has arrived; a child that is given up
makes no requests. -/
def polite (σ : State) : Op → Prop
  | .timer id => ∀ a, (id, a) ∈ σ.reqs → σ.kst a ≠ .operational ∧ .trigger ∉ σ.out a
  | .request a => ∃ r ∈ σ.recs, r.kid = a
  | _ => True

/-- .. all along an execution -/
def Polite (lenient : Bool) (σ : State) : List Op → Prop
  | [] => True
  | o :: os => polite σ o ∧ ∀ τ, step lenient σ o = .ok τ → Polite lenient τ os

def clsO : Out → Bool
  | .trigger => true
  | .reply _ => false

def cls (a : Nat) : QM → Option Bool
  | .kid b o => if b = a then some (clsO o) else none
  | .timeout b => if b = a then some false else none
  | _ => none

/-- triggers (`true`) and ends (`false`) of a child, in the order in which the supervisor sees them -/
def tr (σ : State) (a : Nat) : List Bool := σ.q.filterMap (cls a) ++ (σ.out a).map clsO

def done (σ : State) (a : Nat) : Prop := shutOf σ a = none ∨ shutOf σ a = some .confirmed

structure Safe (σ : State) : Prop where
  quiet : ∀ a, done σ a → true ∉ tr σ a
  deaf : ∀ a, a < σ.nextKid → done σ a → σ.kst a ≠ .operational
  order : ∀ a, (tr σ a).Pairwise (fun x y => x = false → y = false)
  ended : ∀ a, false ∈ tr σ a → σ.kst a ≠ .operational
  maps : ∀ a ∈ σ.maps, shutOf σ a ≠ none
  asked : AllAsked σ

theorem safe_init : Safe .init := by
  constructor <;> simp [State.init, shutOf, find, tr, AllAsked]

theorem shutOf_born {σ : State} (h : Inv σ) (fac : Bool) (a : Nat) :
    shutOf (born σ fac) a = if a = σ.nextKid then some .none else shutOf σ a := by
  simp only [shutOf, born, find_append]
  by_cases e : a = σ.nextKid
  · have := shutOf_fresh h (Nat.le_refl σ.nextKid)
    simp only [shutOf, Option.map_eq_none_iff] at this
    simp [e, this]
  · simp [e, Ne.symm e]

theorem safe_born {σ : State} (h : Inv σ) (s : Safe σ) (hs : σ.sup = .operational) (fac : Bool) : Safe (born σ fac) := by
  have hf := shutOf_born h fac
  have hu := h.unborn σ.nextKid (Nat.le_refl _)
  have hn := shutOf_fresh h (Nat.le_refl σ.nextKid)
  have ht : ∀ a, tr (born σ fac) a = tr σ a := fun _ => rfl
  have hnf : false ∉ tr σ σ.nextKid := by
    intro hc
    simp only [tr, List.mem_append, hu.2.2, List.map_nil, List.not_mem_nil, or_false, List.mem_filterMap] at hc
    obtain ⟨m, hm, hc⟩ := hc
    cases m with
    | kid b o =>
      simp only [cls] at hc
      split at hc
      · rename_i e; subst e
        cases o with
        | trigger => simp [clsO] at hc
        | reply id =>
          have := h.replies _ id (.inr hm)
          rw [hu.1] at this; cases this
      · cases hc
    | timeout b =>
      simp only [cls] at hc
      split at hc
      · rename_i e; subst e
        have := h.sent_of_timeout hm
        rw [hn] at this; cases this
      · cases hc
    | unsub b => cases hc
    | trigSelf => cases hc
  constructor
  · intro a hd
    rw [ht]
    apply s.quiet a
    simp only [done, hf] at hd ⊢
    by_cases e : a = σ.nextKid
    · subst e; exact .inl hn
    · simpa [e] using hd
  · intro a ha hd
    simp only [done, hf] at hd
    by_cases e : a = σ.nextKid
    · simp [e] at hd
    · have hlt : a < σ.nextKid + 1 := ha
      simp only [if_neg e] at hd
      simp only [born, upd]
      rw [if_neg e]
      exact s.deaf a (by omega) hd
  · exact s.order
  · intro a ha
    simp only [born, upd]
    rw [ht] at ha
    by_cases e : a = σ.nextKid
    · subst e; exact absurd ha hnf
    · rw [if_neg e]; exact s.ended a ha
  · intro a ha
    rw [hf]
    split
    · simp
    · exact s.maps a ha
  · intro hc
    exact absurd hs hc

/-- a message is taken -/
theorem tr_pop {σ : State} {m : QM} {q : List QM} (hq : σ.q = m :: q) (a : Nat) :
    tr σ a = (match cls a m with | some b => [b] | none => []) ++ tr { σ with q := q } a := by
  simp only [tr, hq, List.filterMap_cons]
  cases cls a m <;> simp

theorem safe_pop {σ : State} (s : Safe σ) {m : QM} {q : List QM} (hq : σ.q = m :: q) : Safe { σ with q := q } := by
  have hsub : ∀ a, List.Sublist (tr { σ with q := q } a) (tr σ a) := by
    intro a; rw [tr_pop hq a]; exact List.sublist_append_right _ _
  exact {
    quiet := fun a hd hc => s.quiet a hd ((hsub a).subset hc)
    deaf := s.deaf
    order := fun a => (s.order a).sublist (hsub a)
    ended := fun a ha => s.ended a ((hsub a).subset ha)
    maps := s.maps
    asked := s.asked }

theorem ask_fields (σ : State) (r : Rec) : (ask σ r).kst = σ.kst ∧ (ask σ r).out = σ.out ∧ (ask σ r).q = σ.q ∧ (ask σ r).maps = σ.maps ∧
    (ask σ r).nextKid = σ.nextKid ∧ (ask σ r).sup = σ.sup := by
  unfold ask; split <;> exact ⟨rfl, rfl, rfl, rfl, rfl, rfl⟩

theorem fold_fields (l : List Rec) (σ : State) : (l.foldl ask σ).kst = σ.kst ∧ (l.foldl ask σ).out = σ.out ∧ (l.foldl ask σ).q = σ.q ∧
    (l.foldl ask σ).maps = σ.maps ∧ (l.foldl ask σ).nextKid = σ.nextKid := by
  induction l generalizing σ with
  | nil => exact ⟨rfl, rfl, rfl, rfl, rfl⟩
  | cons r l ih =>
    have := ih (ask σ r)
    have h2 := ask_fields σ r
    rw [List.foldl_cons]
    exact ⟨this.1.trans h2.1, this.2.1.trans h2.2.1, this.2.2.1.trans h2.2.2.1, this.2.2.2.1.trans h2.2.2.2.1, this.2.2.2.2.trans h2.2.2.2.2.1⟩

/-- the parts are changed as by asking -/
theorem safe_asked {σ τ : State} (s : Safe σ) (hk : τ.kst = σ.kst) (ho : τ.out = σ.out) (hq : τ.q = σ.q) (hm : τ.maps = σ.maps)
    (hn : τ.nextKid = σ.nextKid) (hs : ∀ a, shutOf τ a = shutOf σ a ∨ (shutOf σ a = some .none ∧ shutOf τ a = some .sent)) (ha : AllAsked τ) :
    Safe τ := by
  have ht : ∀ a, tr τ a = tr σ a := by intro a; simp only [tr, hq, ho]
  have hd : ∀ a, done τ a → done σ a := by
    intro a hd
    simp only [done] at hd ⊢
    rcases hs a with h | ⟨h1, h2⟩
    · rw [← h]; exact hd
    · rw [h2] at hd; simp at hd
  exact {
    quiet := fun a h => ht a ▸ s.quiet a (hd a h)
    deaf := fun a h1 h2 => hk ▸ s.deaf a (hn ▸ h1) (hd a h2)
    order := fun a => ht a ▸ s.order a
    ended := fun a h => hk ▸ s.ended a (ht a ▸ h)
    maps := fun a h => by
      have := s.maps a (hm ▸ h)
      rcases hs a with h | ⟨h1, h2⟩
      · rw [h]; exact this
      · rw [h2]; simp
    asked := ha }

theorem shutOf_mark {σ : State} {a : Nat} {s : Shut} (h : shutOf σ a = some s) (b : Nat) :
    (find (mark σ.recs a .confirmed) b).map Rec.shut = if b = a then some .confirmed else shutOf σ b := by
  obtain ⟨r, hr, -⟩ := shutOf_isSome h
  simp only [find_mark, hr, shutOf]
  split <;> rfl

theorem shutOf_drop (l : List Rec) (a b : Nat) :
    (find (drop l a) b).map Rec.shut = if b = a then none else (find l b).map Rec.shut := by
  simp only [find_drop]
  split <;> rfl

/-- the response of a child is taken: its record is marked or removed -/
theorem safe_took {σ τ : State} {m : QM} {q : List QM} (s : Safe σ) (hq : σ.q = m :: q) {a : Nat} (hm : cls a m = some false)
    (hk : τ.kst = σ.kst) (ho : τ.out = σ.out) (ht : ∀ b, τ.q.filterMap (cls b) = q.filterMap (cls b)) (hn : τ.nextKid = σ.nextKid)
    (hs : ∀ b, b ≠ a → shutOf τ b = shutOf σ b) (ha : shutOf τ a = none ∨ shutOf τ a = some .confirmed)
    (hmap : ∀ b ∈ τ.maps, b ∈ σ.maps ∧ (b = a → shutOf τ a ≠ none)) (hsup : τ.sup = σ.sup) : Safe τ := by
  have h1 : ∀ b, tr τ b = tr { σ with q := q } b := by intro b; simp only [tr, ht b, ho]
  have h2 := tr_pop hq a
  rw [hm] at h2
  have hp := safe_pop s hq
  have h3 : true ∉ tr { σ with q := q } a := by
    have := s.order a
    rw [h2] at this
    intro hc
    have := (List.pairwise_cons.1 this).1 true hc rfl
    cases this
  have h4 : σ.kst a ≠ .operational := s.ended a (by rw [h2]; simp)
  constructor
  · intro b hd
    rw [h1]
    by_cases e : b = a
    · subst e; exact h3
    · apply hp.quiet b
      simp only [done] at hd ⊢
      rw [hs b e] at hd
      exact hd
  · intro b hb hd
    rw [hk]
    by_cases e : b = a
    · subst e; exact h4
    · refine s.deaf b (hn ▸ hb) ?_
      simp only [done] at hd ⊢
      rw [hs b e] at hd
      exact hd
  · intro b; rw [h1]; exact hp.order b
  · intro b hb; rw [hk]; rw [h1] at hb; exact hp.ended b hb
  · intro b hb
    have := hmap b hb
    by_cases e : b = a
    · subst e; exact this.2 rfl
    · rw [hs b e]; exact s.maps b this.1
  · intro hc b
    rw [hsup] at hc
    by_cases e : b = a
    · subst e; rcases ha with h | h <;> rw [h] <;> simp
    · rw [hs b e]; exact s.asked hc b

theorem confirm_ok {σ : State} {err : Bool} {a : Nat} {reqs : List (Nat × Nat)} {m : QM} {q : List QM} (h : Inv σ) (s : Safe σ)
    (hq : σ.q = m :: q) (hm : cls a m = some false)
    (t : Took σ a reqs q (if err then a :: σ.errors else σ.errors)) :
    ∃ τ, confirm true { σ with reqs := reqs, q := q } a err = .ok τ ∧ Safe τ := by
  obtain ⟨r, hr, -⟩ := shutOf_isSome t.sent
  unfold confirm
  simp only [hr]
  rw [if_neg (by simp)]
  by_cases hmp : a ∈ σ.maps
  · rw [if_pos hmp]
    refine ⟨_, rfl, ?_⟩
    refine safe_took s hq hm rfl rfl (by intro b; simp [List.filterMap_append, cls]) rfl ?_ ?_ ?_ rfl
    · intro b hb
      have := shutOf_mark t.sent b
      rw [if_neg hb] at this
      exact this
    · right
      have := shutOf_mark t.sent a
      rw [if_pos rfl] at this
      exact this
    · intro b hb
      refine ⟨hb, ?_⟩
      rintro rfl
      have := shutOf_mark t.sent b
      rw [if_pos rfl] at this
      intro hc
      exact absurd (this.symm.trans hc) (by simp)
  · rw [if_neg hmp]
    unfold remove
    simp only [find_mark, if_true, hr, Option.map_some, drop_mark]
    have hd := inv_dropped h t
    have hsd : Safe { σ with recs := drop σ.recs a, reqs := reqs, q := q, errors := (if err then a :: σ.errors else σ.errors), removed := a :: σ.removed } := by
      refine safe_took s hq hm rfl rfl (fun _ => rfl) rfl ?_ ?_ ?_ rfl
      · intro b hb
        have := shutOf_drop σ.recs a b
        rw [if_neg hb] at this
        exact this
      · left
        have := shutOf_drop σ.recs a a
        rw [if_pos rfl] at this
        exact this
      · intro b hb
        refine ⟨hb, ?_⟩
        rintro rfl
        exact absurd hb hmp
    split
    · rename_i ho
      exact ⟨_, rfl, safe_born hd hsd ho.1 true⟩
    · exact ⟨_, rfl, hsd⟩

theorem handle_ok {σ : State} {m : QM} {q : List QM} (h : Inv σ) (s : Safe σ) (hq : σ.q = m :: q) :
    ∃ τ, handle true { σ with q := q } m = .ok τ ∧ Safe τ := by
  have hp := safe_pop s hq
  cases m with
  | kid a o =>
    cases o with
    | trigger =>
      have ht : true ∈ tr σ a := by rw [tr_pop hq a]; simp [cls, clsO]
      have hd : ¬ done σ a := fun hc => s.quiet a hc ht
      cases hf : find σ.recs a with
      | none => exact absurd (.inl (by simp [shutOf, hf])) hd
      | some r =>
        have hk := find_kid hf
        have hr : find ({ σ with q := q } : State).recs r.kid = some r := by rw [hk]; exact hf
        refine ⟨ask { σ with q := q } r, by simp only [handle, hf], ?_⟩
        have hF := ask_fields { σ with q := q } r
        have hS := shutOf_ask hr
        have hS' : ∀ b, shutOf (ask { σ with q := q } r) b = shutOf { σ with q := q } b ∨
            (shutOf { σ with q := q } b = some .none ∧ shutOf (ask { σ with q := q } r) b = some .sent) := by
          intro b
          rw [hS]
          split
          · rename_i e
            right
            exact ⟨by rw [e.1]; simp [shutOf, hk, hf, e.2], rfl⟩
          · exact .inl rfl
        refine safe_asked hp hF.1 hF.2.1 hF.2.2.1 hF.2.2.2.1 hF.2.2.2.2.1 hS' ?_
        intro hc b
        rw [hF.2.2.2.2.2] at hc
        rcases hS' b with h | ⟨-, h⟩
        · rw [h]; exact hp.asked hc b
        · rw [h]; simp
    | reply id =>
      simp only [handle]
      split
      · rename_i hr
        exact confirm_ok h s hq (err := false) (by simp [cls, clsO]) (took_reply h hq hr)
      · exact ⟨_, rfl, hp⟩
  | timeout a =>
    simp only [handle]
    exact confirm_ok h s hq (err := true) (by simp [cls]) (took_timeout h hq)
  | unsub a =>
    have hc : shutOf σ a = some .confirmed := h.confirmed_of_unsub (hq ▸ List.mem_cons_self)
    obtain ⟨r, hr, -⟩ := shutOf_isSome hc
    simp only [handle, remove, hr]
    have hd := inv_unsub h hq (σ.maps.filter (fun b => decide (b ≠ a)))
    have hs : ∀ b, shutOf { σ with recs := drop σ.recs a, q := q, maps := σ.maps.filter (fun b => decide (b ≠ a)), removed := a :: σ.removed } b =
        if b = a then none else shutOf σ b := fun b => shutOf_drop σ.recs a b
    have hdone : ∀ b, done { σ with recs := drop σ.recs a, q := q, maps := σ.maps.filter (fun b => decide (b ≠ a)), removed := a :: σ.removed } b → done σ b := by
      intro b hb
      simp only [done, hs] at hb ⊢
      by_cases e : b = a
      · subst e; exact .inr hc
      · simpa [e] using hb
    have hsd : Safe { σ with recs := drop σ.recs a, q := q, maps := σ.maps.filter (fun b => decide (b ≠ a)), removed := a :: σ.removed } := {
      quiet := fun b hb => hp.quiet b (hdone b hb)
      deaf := fun b h1 h2 => s.deaf b h1 (hdone b h2)
      order := hp.order
      ended := hp.ended
      maps := fun b hb => by
        have hb := List.mem_filter.1 hb
        have hne : b ≠ a := by simpa using hb.2
        rw [hs, if_neg hne]; exact s.maps b hb.1
      asked := fun hx b => by
        rw [hs]
        split
        · simp
        · exact s.asked hx b }
    split
    · rename_i ho
      exact ⟨_, rfl, safe_born hd hsd ho.1 true⟩
    · exact ⟨_, rfl, hsd⟩
  | trigSelf =>
    simp only [handle]
    split
    · have hpi := inv_pop h hq (by simp) (by simp)
      refine ⟨_, rfl, ?_⟩
      have hF := fold_fields σ.recs { σ with q := q, sup := .stopping }
      have hI := inv_fold σ.recs (inv_stop hpi .stopping (by simp)) h.nodup (fun r hr => find_of_mem h.nodup hr)
      have hS : ∀ b, shutOf (σ.recs.foldl ask { σ with q := q, sup := .stopping }) b =
          if b ∈ σ.recs.map Rec.kid ∧ shutOf σ b = some .none then some .sent else shutOf σ b := hI.2.1
      refine safe_asked hp hF.1 hF.2.1 hF.2.2.1 hF.2.2.2.1 hF.2.2.2.2 ?_ ?_
      · intro b
        rw [hS]
        split
        · rename_i e; exact .inr ⟨e.2, rfl⟩
        · exact .inl rfl
      · intro _ b
        rw [hS]
        split
        · simp
        · rename_i e
          intro hb
          apply e
          refine ⟨?_, hb⟩
          obtain ⟨r, hr, -⟩ := shutOf_isSome hb
          rw [← find_kid hr]
          exact List.mem_map_of_mem (find_mem hr)
    · exact ⟨_, rfl, hp⟩

theorem step_ok {σ : State} {o : Op} (h : Inv σ) (s : Safe σ) (hp : polite σ o) : ∃ τ, step true σ o = .ok τ ∧ Safe τ := by
  cases o with
  | create fac =>
    simp only [step]
    split
    · rename_i ho; exact ⟨_, rfl, safe_born h s ho fac⟩
    · exact ⟨_, rfl, s⟩
  | kidShutdown a =>
    simp only [step]
    split
    · rename_i ho
      refine ⟨_, rfl, ?_⟩
      have hlt : a < σ.nextKid := by
        apply Classical.byContradiction
        intro hc
        have := (h.unborn a (by omega)).1
        rw [ho] at this; cases this
      have hnd : ¬ done σ a := fun hc => s.deaf a hlt hc ho
      have hnf : false ∉ tr σ a := fun hc => s.ended a hc ho
      have ht : ∀ b, tr { σ with out := upd σ.out a (σ.out a ++ [.trigger]) } b = if b = a then tr σ a ++ [true] else tr σ b := by
        intro b
        simp only [tr, upd]
        by_cases e : b = a
        · subst e; simp [clsO]
        · simp [e]
      constructor
      · intro b hd
        rw [ht]
        by_cases e : b = a
        · subst e; exact absurd hd hnd
        · rw [if_neg e]; exact s.quiet b hd
      · exact s.deaf
      · intro b
        rw [ht]
        by_cases e : b = a
        · rw [if_pos e, List.pairwise_append]
          refine ⟨s.order a, by simp, ?_⟩
          intro x hx y _ hxf
          subst hxf
          exact absurd hx hnf
        · rw [if_neg e]; exact s.order b
      · intro b hb
        rw [ht] at hb
        by_cases e : b = a
        · rw [if_pos e] at hb
          simp at hb
          exact absurd hb hnf
        · rw [if_neg e] at hb; exact s.ended b hb
      · exact s.maps
      · exact s.asked
    · exact ⟨_, rfl, s⟩
  | supShutdown =>
    refine ⟨_, rfl, ?_⟩
    have ht : ∀ b, tr { σ with q := σ.q ++ [.trigSelf] } b = tr σ b := by
      intro b; simp [tr, List.filterMap_append, cls]
    exact {
      quiet := fun b hd => ht b ▸ s.quiet b hd
      deaf := s.deaf
      order := fun b => ht b ▸ s.order b
      ended := fun b hb => s.ended b (ht b ▸ hb)
      maps := s.maps
      asked := s.asked }
  | request a =>
    have key : Safe { σ with maps := σ.maps ++ [a] } := {
      quiet := s.quiet, deaf := s.deaf, order := s.order, ended := s.ended, asked := s.asked
      maps := fun b hb => by
        rcases List.mem_append.1 hb with hb | hb
        · exact s.maps b hb
        · simp at hb; subst hb
          obtain ⟨r, hr, rfl⟩ := hp
          have := find_of_mem h.nodup hr
          simp [shutOf, this] }
    simp only [step]
    split
    · split
      · exact ⟨_, rfl, s⟩
      · exact ⟨_, rfl, key⟩
    · split
      · exact ⟨_, rfl, s⟩
      · exact ⟨_, rfl, key⟩
    · exact ⟨_, rfl, s⟩
  | asked a =>
    simp only [step]
    split
    · refine ⟨_, rfl, ?_⟩
      have hk : ∀ b (id : Nat), σ.kst b ≠ .operational → upd σ.kst a (.stopping id) b ≠ .operational := by
        intro b id hb
        simp only [upd]
        split
        · simp
        · exact hb
      exact {
        quiet := s.quiet
        deaf := fun b h1 h2 => hk b _ (s.deaf b h1 h2)
        order := s.order
        ended := fun b hb => hk b _ (s.ended b hb)
        maps := s.maps
        asked := s.asked }
    · exact ⟨_, rfl, s⟩
  | kidFinish a =>
    simp only [step]
    split
    · rename_i id hk
      refine ⟨_, rfl, ?_⟩
      have ht : ∀ b, tr { σ with kst := upd σ.kst a .stopped, out := upd σ.out a (σ.out a ++ [.reply id]) } b = if b = a then tr σ a ++ [false] else tr σ b := by
        intro b
        simp only [tr, upd]
        by_cases e : b = a
        · subst e; simp [clsO]
        · simp [e]
      constructor
      · intro b hd
        rw [ht]
        by_cases e : b = a
        · subst e; rw [if_pos rfl]
          have := s.quiet b hd
          simp [this]
        · rw [if_neg e]; exact s.quiet b hd
      · intro b h1 h2
        simp only [upd]
        split
        · simp
        · exact s.deaf b h1 h2
      · intro b
        rw [ht]
        by_cases e : b = a
        · rw [if_pos e, List.pairwise_append]
          refine ⟨s.order a, by simp, ?_⟩
          intro x _ y hy _
          simpa using hy
        · rw [if_neg e]; exact s.order b
      · intro b hb
        simp only [upd]
        by_cases e : b = a
        · rw [if_pos e]; simp
        · rw [if_neg e]; rw [ht, if_neg e] at hb; exact s.ended b hb
      · exact s.maps
      · exact s.asked
    · exact ⟨_, rfl, s⟩
  | arrive a =>
    simp only [step]
    split
    · exact ⟨_, rfl, s⟩
    · rename_i o os ho
      refine ⟨_, rfl, ?_⟩
      have ht : ∀ b, tr { σ with out := upd σ.out a os, q := σ.q ++ [.kid a o] } b = tr σ b := by
        intro b
        simp only [tr, upd, List.filterMap_append, List.filterMap_cons, List.filterMap_nil, cls]
        by_cases e : b = a
        · subst e; simp [ho]
        · simp [e, Ne.symm e]
      exact {
        quiet := fun b hd => ht b ▸ s.quiet b hd
        deaf := s.deaf
        order := fun b => ht b ▸ s.order b
        ended := fun b hb => s.ended b (ht b ▸ hb)
        maps := s.maps
        asked := s.asked }
  | timer id =>
    simp only [step]
    split
    · exact ⟨_, rfl, s⟩
    · rename_i p hpf
      refine ⟨_, rfl, ?_⟩
      have hpm := List.mem_of_find?_eq_some hpf
      have hid : p.1 = id := by simpa using List.find?_some hpf
      have hpol := hp p.2 (by rw [← hid]; exact hpm)
      have hsent := h.sent_of_req hpm
      have hout : true ∉ (σ.out p.2).map clsO := by
        intro hc
        obtain ⟨o, ho, hx⟩ := List.mem_map.1 hc
        cases o with
        | trigger => exact hpol.2 ho
        | reply id => cases hx
      have ht : ∀ b, tr { σ with reqs := σ.reqs.filter (fun x => decide (x ≠ p)), q := σ.q ++ [.timeout p.2], fired := p.2 :: σ.fired } b =
          σ.q.filterMap (cls b) ++ ((if b = p.2 then [false] else []) ++ (σ.out b).map clsO) := by
        intro b
        simp only [tr, List.filterMap_append, List.filterMap_cons, List.filterMap_nil, cls]
        by_cases e : b = p.2
        · subst e; simp
        · simp [e, Ne.symm e]
      constructor
      · intro b hd hc
        apply s.quiet b hd
        rw [ht] at hc
        simp only [tr, List.mem_append] at hc ⊢
        rcases hc with hc | hc | hc
        · exact .inl hc
        · split at hc <;> simp at hc
        · exact .inr hc
      · exact s.deaf
      · intro b
        rw [ht]
        have h0 := s.order b
        simp only [tr] at h0
        by_cases e : b = p.2
        · subst e
          rw [if_pos rfl]
          rw [List.pairwise_append] at h0 ⊢
          refine ⟨h0.1, ?_, ?_⟩
          · rw [List.singleton_append, List.pairwise_cons]
            refine ⟨?_, h0.2.1⟩
            intro y hy _
            cases y with
            | false => rfl
            | true => exact absurd hy hout
          · intro x hx y hy hxf
            rcases List.mem_append.1 hy with hy | hy
            · simpa using hy
            · exact h0.2.2 x hx y hy hxf
        · rw [if_neg e]; simpa using h0
      · intro b hb
        by_cases e : b = p.2
        · subst e; exact hpol.1
        · rw [ht, if_neg e] at hb
          exact s.ended b (by simpa [tr] using hb)
      · exact s.maps
      · exact s.asked
  | process =>
    simp only [step]
    split
    · exact ⟨_, rfl, s⟩
    · rename_i m q hq
      split
      · exact ⟨_, rfl, safe_pop s hq⟩
      · exact handle_ok h s hq
  | finish =>
    simp only [step]
    split
    · rename_i hc
      have hm : σ.maps = [] := by
        rw [List.eq_nil_iff_forall_not_mem]
        intro a ha
        exact s.maps a ha (by simp [shutOf, hc.2, find])
      rw [if_pos hm]
      refine ⟨_, rfl, ?_⟩
      exact { quiet := s.quiet, deaf := s.deaf, order := s.order, ended := s.ended, maps := s.maps
              asked := fun _ a => s.asked (by rw [hc.1]; simp) a }
    · exact ⟨_, rfl, s⟩

theorem run_ok {σ : State} {os : List Op} (h : Inv σ) (s : Safe σ) (hp : Polite true σ os) : ∃ τ, run true σ os = .ok τ ∧ Inv τ ∧ Safe τ := by
  induction os generalizing σ with
  | nil => exact ⟨σ, rfl, h, s⟩
  | cons o os ih =>
    obtain ⟨τ, h1, h2⟩ := step_ok h s hp.1
    simp only [run, h1]
    exact ih (inv_step h h1) h2 (hp.2 τ h1)

end Verif.ShutTimeout
