import Verif.Lifetime.Progress

/-!
# Every subscription is undone once
-/

namespace Verif.Lifetime
open Verif

/-- nothing is made or removed between `s` and `s'` -/
structure Keep (s s' : State) : Prop where
  live : s'.live = s.live
  own : s'.own = s.own
  next : s'.next = s.next
  points : s'.points.Sublist s.points
  made : ∀ x, s'.log.count (.made x) = s.log.count (.made x)
  removed : ∀ x, s'.log.count (.removed x) = s.log.count (.removed x)

theorem Keep.refl (s : State) : Keep s s := ⟨rfl, rfl, rfl, List.Sublist.refl _, fun _ => rfl, fun _ => rfl⟩
theorem Keep.trans {a b c : State} (h1 : Keep a b) (h2 : Keep b c) : Keep a c :=
  ⟨h2.live.trans h1.live, h2.own.trans h1.own, h2.next.trans h1.next, h2.points.trans h1.points,
    fun x => (h2.made x).trans (h1.made x), fun x => (h2.removed x).trans (h1.removed x)⟩

theorem keep_frame {s s' : State} (f : Frame s s') : Keep s s' :=
  ⟨f.live, f.own, f.next, by rw [f.points]; exact List.Sublist.refl _, fun _ => by rw [f.log], fun _ => by rw [f.log]⟩

theorem keep_base {p : Nat} {s s' : State} (he : baseDeactivate p s = .ok s') : Keep s s' ∧ s'.log = s.log := by
  simp only [baseDeactivate] at he
  split at he
  · split at he
    · simp only [Except.ok.injEq] at he; subst he; exact ⟨⟨rfl, rfl, rfl, List.Sublist.refl _, fun _ => rfl, fun _ => rfl⟩, rfl⟩
    · split at he
      · simp at he
      · simp only [Except.ok.injEq] at he; subst he
        exact ⟨keep_frame (frame_markAll _ _), (frame_markAll _ _).log⟩
  · simp only [Except.ok.injEq] at he; subst he; exact ⟨.refl _, rfl⟩

theorem vote_keep {c : Cfg} {env : Env} {p : Nat} {s s' : State} {b : Bool} (he : vote c env p s = .ok (s', b)) :
    Keep s s' ∧ (.reply ∈ s'.log → .reply ∈ s.log) ∧ s'.st = s.st := by
  simp only [vote] at he
  by_cases hp : p = c.life
  · rw [if_pos hp] at he
    split at he
    · simp only [Except.ok.injEq, Prod.mk.injEq] at he
      rw [← he.1]; exact ⟨.refl _, id, rfl⟩
    · cases h : lifeUnsub c s with
      | error x => rw [h] at he; simp at he
      | ok s1 =>
        rw [h] at he
        simp only [Except.ok.injEq, Prod.mk.injEq] at he
        have f := lifeUnsub_facts h
        rw [← he.1]
        refine ⟨⟨f.live, f.own, f.next, ?_, fun _ => by rw [f.log], fun _ => by rw [f.log]⟩, by rw [f.log]; exact id, f.st⟩
        rw [f.points]; exact List.filter_sublist
  · rw [if_neg hp] at he
    by_cases hs : p = c.shut
    · rw [if_pos hs] at he
      cases h : deactAll c c.order s with
      | error x => rw [h] at he; simp at he
      | ok s1 =>
        rw [h] at he
        simp only [Except.ok.injEq, Prod.mk.injEq] at he
        have f := deactAll_facts c c.order s s1 (nodup_order c) h
        rw [← he.1]
        refine ⟨⟨f.live, f.own, f.next, ?_, fun _ => by rw [f.log], fun _ => by rw [f.log]⟩, by rw [f.log]; exact id, f.st⟩
        rw [f.points]; exact List.Sublist.refl _
    · rw [if_neg hs] at he
      simp only [Except.ok.injEq, Prod.mk.injEq] at he
      rw [← he.1]
      refine ⟨⟨rfl, rfl, rfl, List.Sublist.refl _, fun x => ?_, fun x => ?_⟩, fun h => ?_, rfl⟩
      · simp
      · simp
      · simpa using h

theorem pass_keep {c : Cfg} {env : Env} : ∀ (ps : List Nat) (s s' : State) (b : Bool), pass c env ps s = .ok (s', b) →
    Keep s s' ∧ (.reply ∈ s'.log → .reply ∈ s.log) ∧ s'.st = s.st := by
  intro ps
  induction ps with
  | nil =>
    intro s s' b he
    simp only [pass, Except.ok.injEq, Prod.mk.injEq] at he
    rw [← he.1]; exact ⟨.refl _, id, rfl⟩
  | cons p ps ih =>
    intro s s' b he
    simp only [pass] at he
    split at he
    · cases hv : vote c env p s with
      | error x => rw [hv] at he; simp at he
      | ok r =>
        obtain ⟨s1, b1⟩ := r
        rw [hv] at he
        obtain ⟨h1, h2, h3⟩ := vote_keep hv
        cases b1 with
        | true =>
          simp only at he
          obtain ⟨g1, g2, g3⟩ := ih _ _ _ he
          exact ⟨h1.trans (Keep.trans (b := { s1 with react := upd s1.react p false }) ⟨rfl, rfl, rfl, List.Sublist.refl _, fun _ => rfl, fun _ => rfl⟩ g1), fun h => h2 (g2 h), g3.trans h3⟩
        | false =>
          simp only [Except.ok.injEq, Prod.mk.injEq] at he
          rw [← he.1]; exact ⟨h1, h2, h3⟩
    · exact ih _ _ _ he

theorem continue_keep {c : Cfg} {env : Env} {s s' : State} (he : shutdownContinue c env s = .ok s') :
    Keep s s' ∧ (.reply ∈ s'.log → .reply ∈ s.log ∨ s'.st = .shutDown) := by
  simp only [shutdownContinue] at he
  split at he
  · cases hp : pass c env c.order s with
    | error x => rw [hp] at he; simp at he
    | ok r =>
      obtain ⟨s1, b⟩ := r
      rw [hp] at he
      obtain ⟨h1, h2, h3⟩ := pass_keep _ _ _ _ hp
      cases b with
      | true =>
        simp only [finish] at he
        split at he
        · simp only [Except.ok.injEq] at he
          subst he
          exact ⟨h1.trans ⟨rfl, rfl, rfl, List.Sublist.refl _, fun x => by simp, fun x => by simp⟩, fun _ => .inr rfl⟩
        · simp at he
      | false =>
        simp only [Except.ok.injEq] at he
        subst he
        exact ⟨h1, fun h => .inl (h2 h)⟩
  · simp at he

/-- the log is right -/
structure K (s : State) : Prop where
  ol : ∀ p, ∀ x ∈ s.own p, x ∈ s.live
  oN : ∀ p, (s.own p).Nodup
  pl : ∀ x ∈ s.points, x.owner = none → x ∈ s.live
  cnt : ∀ x, s.log.count (.made x) = s.log.count (.removed x) + s.live.count x
  m1 : ∀ x, s.log.count (.made x) ≤ 1
  fr : ∀ x, .made x ∈ s.log → x.user = true → x.uid < s.next
  rp : .reply ∈ s.log → s.st = .shutDown

theorem K.keep {s s' : State} (h : K s) (k : Keep s s') (hr : .reply ∈ s'.log → s'.st = .shutDown) : K s' where
  ol := by rw [k.own, k.live]; exact h.ol
  oN := by rw [k.own]; exact h.oN
  pl x hx := by rw [k.live]; exact h.pl x (k.points.subset hx)
  cnt x := by rw [k.made, k.removed, k.live]; exact h.cnt x
  m1 x := by rw [k.made]; exact h.m1 x
  fr x hx := by
    rw [k.next]
    refine h.fr x ?_
    rw [← List.count_pos_iff, k.made, List.count_pos_iff] at hx
    exact hx
  rp := hr

theorem K.frame {s s' : State} (h : K s) (f : Frame s s') : K s' :=
  h.keep (keep_frame f) (by rw [f.log, f.st]; exact h.rp)

theorem K.live1 {s : State} (h : K s) (x : Sub) : s.live.count x ≤ 1 := by
  have := h.cnt x; have := h.m1 x; omega

theorem K.liveN {s : State} (h : K s) : s.live.Nodup := List.nodup_iff_count.2 h.live1

theorem count_erase_removed {s : State} (h : K s) {x : Sub} (hx : x ∈ s.live) (y : Sub) :
    (Ev.removed x :: s.log).count (.made y) = (Ev.removed x :: s.log).count (.removed y) + (s.live.erase x).count y := by
  have h1 := h.cnt y
  have h2 : 0 < s.live.count x := List.count_pos_iff.2 hx
  by_cases e : y = x
  · subst e
    simp only [List.count_cons, List.count_erase_self]
    simp
    omega
  · have e' : x ≠ y := Ne.symm e
    have e2 : ¬ (Ev.removed x = Ev.removed y) := by simpa using e'
    rw [List.count_erase_of_ne e, List.count_cons_of_ne (by simp), List.count_cons_of_ne e2, h1]

theorem K.removeOwn {s : State} (h : K s) {x : Sub} {p : Nat} (ho : ∀ q, ∀ y ∈ s.own q, y.owner = some q) (hx : x ∈ s.own p) (hst : s.st ≠ .shutDown) :
    K { s with own := upd s.own p ((s.own p).erase x), live := s.live.erase x, log := .removed x :: s.log } where
  ol q y hy := by
    simp only
    have hy' := mem_erase_upd hy
    refine (List.Nodup.mem_erase_iff h.liveN).2 ⟨?_, h.ol q y hy'⟩
    rintro rfl
    have := ho q y hy'
    rw [ho p y hx] at this
    have := Option.some.inj this
    subst this
    simp only [upd_self] at hy
    exact ((List.Nodup.mem_erase_iff (h.oN _)).1 hy).1 rfl
  oN q := by
    simp only [upd]
    by_cases e : q = p
    · simp only [if_pos e]; exact (h.oN p).erase x
    · simp only [if_neg e]; exact h.oN q
  pl y hy hn := by
    simp only at hy ⊢
    refine (List.Nodup.mem_erase_iff h.liveN).2 ⟨?_, h.pl y hy hn⟩
    rintro rfl
    rw [ho p y hx] at hn; simp at hn
  cnt := count_erase_removed h (h.ol p x hx)
  m1 y := by simp only; rw [List.count_cons_of_ne (by simp)]; exact h.m1 y
  fr y hy := h.fr y (by simpa using hy)
  rp hr := absurd (h.rp (by simpa using hr)) hst

theorem K.removeAnon {s : State} (h : K s) (hpN : (s.points.filter anon).Nodup) {x : Sub} (ho : ∀ q, ∀ y ∈ s.own q, y.owner = some q) (hn : x.owner = none) (hx : x ∈ s.points) (hst : s.st ≠ .shutDown) :
    K { s with points := s.points.erase x, live := s.live.erase x, log := .removed x :: s.log } where
  ol q y hy := by
    simp only at hy ⊢
    refine (List.Nodup.mem_erase_iff h.liveN).2 ⟨?_, h.ol q y hy⟩
    rintro rfl
    rw [ho q y hy] at hn; simp at hn
  oN := h.oN
  pl y hy hyn := by
    simp only at hy ⊢
    refine (List.Nodup.mem_erase_iff h.liveN).2 ⟨?_, h.pl y (List.mem_of_mem_erase hy) hyn⟩
    rintro rfl
    have ha : anon y = true := by simp [anon, hn]
    have h1 : 0 < (s.points.erase y).count y := List.count_pos_iff.2 hy
    rw [List.count_erase_self] at h1
    have h2 := List.nodup_iff_count.1 hpN y
    rw [List.count_filter ha] at h2
    omega
  cnt := count_erase_removed h (h.pl x hx hn)
  m1 y := by simp only; rw [List.count_cons_of_ne (by simp)]; exact h.m1 y
  fr y hy := h.fr y (by simpa using hy)
  rp hr := absurd (h.rp (by simpa using hr)) hst

/-- both -/
structure Inv (c : Cfg) (s : State) : Prop where
  all : SafeAll c s
  k : K s
  pN : (s.points.filter anon).Nodup

theorem Keep.pN {s s' : State} (k : Keep s s') (h : (s.points.filter anon).Nodup) : (s'.points.filter anon).Nodup :=
  h.sublist (k.points.filter _)

theorem forget_K {c : Cfg} {env : Env} {p : Nat} {x : Sub} {s s' : State} (h : K s) (hpN : (s.points.filter anon).Nodup)
    (ho : ∀ q, ∀ y ∈ s.own q, y.owner = some q) (hx : x ∈ s.own p) (hst : s.st ≠ .shutDown)
    (he : forget c env p x s = .ok s') : K s' ∧ (s'.points.filter anon).Nodup := by
  simp only [forget] at he
  have h1 := h.removeOwn ho hx hst
  split at he
  · split at he
    · generalize hs2 : ({ s with own := upd s.own p ((s.own p).erase x), live := s.live.erase x, log := .removed x :: s.log, deact := s.deact.erase p } : State) = s2 at he
      cases hcn : shutdownContinue c env s2 with
      | error e => rw [hcn] at he; simp at he
      | ok s3 =>
        rw [hcn] at he
        simp only [Except.ok.injEq] at he
        subst he
        obtain ⟨g1, g2⟩ := continue_keep hcn
        have k2 : K s2 := by subst hs2; exact h1.keep ⟨rfl, rfl, rfl, List.Sublist.refl _, fun _ => rfl, fun _ => rfl⟩ h1.rp
        have p2 : (s2.points.filter anon).Nodup := by subst hs2; exact hpN
        have g3 : Keep s2 { s3 with active := upd s3.active p false } := g1.trans ⟨rfl, rfl, rfl, List.Sublist.refl _, fun _ => rfl, fun _ => rfl⟩
        refine ⟨k2.keep g3 (fun hr => ?_), g3.pN p2⟩
        rcases g2 hr with h4 | h4
        · have := k2.rp h4; subst hs2; exact absurd this hst
        · exact h4
    · simp only [Except.ok.injEq] at he
      subst he
      exact ⟨h1.keep ⟨rfl, rfl, rfl, List.Sublist.refl _, fun _ => rfl, fun _ => rfl⟩ h1.rp, hpN⟩
  · simp only [Except.ok.injEq] at he
    subst he
    exact ⟨h1, hpN⟩

theorem subscribe_K {c : Cfg} {b e : Bool} {s s' : State} (h : K s) (hpN : (s.points.filter anon).Nodup)
    (he : subscribe c b e s = .ok s') : K s' ∧ (s'.points.filter anon).Nodup := by
  simp only [subscribe] at he
  split at he
  · simp at he
  · simp only [Except.ok.injEq] at he
    generalize hx : (⟨if b = true then some c.starter else none, true, s.next, e⟩ : Sub) = x at he
    have hu : x.user = true := by subst hx; rfl
    have hid : x.uid = s.next := by subst hx; rfl
    have hnm : .made x ∉ s.log := fun hm => absurd (h.fr x hm hu) (by rw [hid]; exact Nat.lt_irrefl _)
    have h0 : s.log.count (.made x) = 0 := List.count_eq_zero.2 hnm
    have hnl : x ∉ s.live := by
      have := h.cnt x
      rw [← List.count_eq_zero]; omega
    have hcnt : ∀ y, (Ev.made x :: s.log).count (.made y) = (Ev.made x :: s.log).count (.removed y) + (s.live ++ [x]).count y := by
      intro y
      have h1 := h.cnt y
      have h2 : (Ev.made x :: s.log).count (.removed y) = s.log.count (.removed y) := List.count_cons_of_ne (by simp)
      rw [List.count_append, h2]
      by_cases e : y = x
      · subst e
        have h3 : (Ev.made y :: s.log).count (.made y) = s.log.count (.made y) + 1 := List.count_cons_self
        have h4 : [y].count y = 1 := by simp
        omega
      · have h3 : (Ev.made x :: s.log).count (.made y) = s.log.count (.made y) := List.count_cons_of_ne (by simpa using Ne.symm e)
        have h4 : [x].count y = 0 := List.count_eq_zero.2 (by simpa using e)
        omega
    have hm1 : ∀ y, (Ev.made x :: s.log).count (.made y) ≤ 1 := by
      intro y
      by_cases e : y = x
      · subst e; simp [h0]
      · rw [List.count_cons_of_ne (by simpa using Ne.symm e)]; exact h.m1 y
    have hfr : ∀ y, .made y ∈ (Ev.made x :: s.log) → y.user = true → y.uid < s.next + 1 := by
      intro y hy hyu
      rcases List.mem_cons.1 hy with hy | hy
      · simp only [Ev.made.injEq] at hy
        rw [hy, hid]; exact Nat.lt_succ_self _
      · exact Nat.lt_succ_of_lt (h.fr y hy hyu)
    have hpl : ∀ y ∈ s.points ++ [x], y.owner = none → y ∈ s.live ++ [x] := by
      intro y hy hn
      rcases List.mem_append.1 hy with hy | hy
      · exact List.mem_append_left _ (h.pl y hy hn)
      · exact List.mem_append_right _ hy
    have hp2 : ((s.points ++ [x]).filter anon).Nodup := by
      rw [List.filter_append]
      refine List.nodup_append.2 ⟨hpN, List.Nodup.sublist List.filter_sublist (by simp), ?_⟩
      intro a ha d hd had
      have hd1 := (List.mem_filter.1 hd).1
      rw [List.mem_singleton] at hd1
      have ha1 := List.mem_filter.1 ha
      subst had hd1
      exact hnl (h.pl _ ha1.1 (by simpa [anon] using ha1.2))
    cases b with
    | true =>
      simp only [if_true] at he
      subst he
      refine ⟨⟨?_, ?_, hpl, hcnt, hm1, hfr, fun hr => h.rp (by simpa using hr)⟩, hp2⟩
      · intro q y hy
        simp only [upd] at hy
        by_cases e : q = c.starter
        · simp only [if_pos e, List.mem_append] at hy
          rcases hy with hy | hy
          · exact List.mem_append_left _ (h.ol _ y hy)
          · exact List.mem_append_right _ hy
        · simp only [if_neg e] at hy
          exact List.mem_append_left _ (h.ol _ y hy)
      · intro q
        simp only [upd]
        by_cases e : q = c.starter
        · simp only [if_pos e]
          refine List.nodup_append.2 ⟨h.oN _, by simp, ?_⟩
          intro a ha d hd had
          rw [List.mem_singleton] at hd
          subst had hd
          exact hnl (h.ol _ _ ha)
        · simp only [if_neg e]; exact h.oN q
    | false =>
      simp only [Bool.false_eq_true, if_false] at he
      subst he
      exact ⟨⟨fun q y hy => List.mem_append_left _ (h.ol q y hy), h.oN, hpl, hcnt, hm1, hfr, fun hr => h.rp (by simpa using hr)⟩, hp2⟩

theorem step_inv (c : Cfg) (env : Env) (s s' : State) (op : Op) (h : Inv c s) (he : step c env s op = .ok s') : Inv c s' := by
  have hall := step_safe c env s s' op h.all he
  suffices hs : K s' ∧ (s'.points.filter anon).Nodup from ⟨hall, hs.1, hs.2⟩
  have hcont : ∀ t t' : State, K t → (t.points.filter anon).Nodup → t.st = .shuttingDown → shutdownContinue c env t = .ok t' → K t' ∧ (t'.points.filter anon).Nodup := by
    intro t t' hk hp hst hc
    obtain ⟨g1, g2⟩ := continue_keep hc
    refine ⟨hk.keep g1 (fun hr => ?_), g1.pN hp⟩
    rcases g2 hr with h1 | h1
    · have := hk.rp h1; rw [hst] at this; simp at this
    · exact h1
  cases op with
  | request =>
    simp only [step] at he
    split at he
    · rename_i hr
      have hd : s.st ≠ .shutDown := by intro e; rw [e] at hr; simp [AState.rank] at hr
      refine hcont { s with st := .shuttingDown } s' ?_ h.pN rfl he
      exact h.k.keep ⟨rfl, rfl, rfl, List.Sublist.refl _, fun _ => rfl, fun _ => rfl⟩ (fun hr => absurd (h.k.rp hr) hd)
    · simp at he
  | cont p =>
    simp only [step] at he
    split at he
    · rename_i hr
      exact hcont s s' h.k h.pN hr.1 he
    · simp at he
  | join p =>
    simp only [step] at he
    split at he
    · simp only [Except.ok.injEq] at he
      subst he
      exact ⟨h.k.keep ⟨rfl, rfl, rfl, List.Sublist.refl _, fun _ => rfl, fun _ => rfl⟩ h.k.rp, h.pN⟩
    · simp at he
  | confirm =>
    simp only [step, confirm] at he
    have hqk : ∀ q, K { s with queue := q } := fun q => h.k.keep ⟨rfl, rfl, rfl, List.Sublist.refl _, fun _ => rfl, fun _ => rfl⟩ h.k.rp
    cases hq : s.queue with
    | nil => rw [hq] at he; simp only [Except.ok.injEq] at he; subst he; exact ⟨h.k, h.pN⟩
    | cons x rest =>
      rw [hq] at he
      simp only at he
      by_cases hd : s.st = .shutDown
      · have hl := (h.all.dn hd).1
        rw [if_neg (show hExt c ∉ s.live by rw [hl]; simp), if_neg (show hInt c ∉ s.live by rw [hl]; simp)] at he
        split at he
        · simp only [Except.ok.injEq] at he; subst he; exact ⟨hqk rest, h.pN⟩
        · simp only [Except.ok.injEq] at he; subst he; exact ⟨hqk rest, h.pN⟩
      · split at he
        · split at he
          · split at he
            · rename_i hx
              exact forget_K (s := { s with queue := rest }) (hqk rest) h.pN h.all.safe.ownOf hx hd he
            · simp at he
          · simp only [Except.ok.injEq] at he; subst he; exact ⟨hqk rest, h.pN⟩
        · split at he
          · split at he
            · rename_i hn
              simp only [forgetAnon] at he
              split at he
              · rename_i hx
                have k1 := (hqk rest).removeAnon (s := { s with queue := rest }) h.pN h.all.safe.ownOf hn hx.1 hd
                have p1 : ((s.points.erase x).filter anon).Nodup := h.pN.sublist (List.erase_sublist.filter _)
                split at he
                · obtain ⟨g1, g2⟩ := keep_base he
                  refine ⟨k1.keep g1 (fun hr => ?_), g1.pN p1⟩
                  rw [g2] at hr
                  exact absurd (k1.rp hr) hd
                · simp only [Except.ok.injEq] at he; subst he; exact ⟨k1, p1⟩
              · simp at he
            · rename_i p hon
              split at he
              · rename_i hx
                exact forget_K (s := { s with queue := rest }) (hqk rest) h.pN h.all.safe.ownOf hx hd he
              · simp only [Except.ok.injEq] at he; subst he; exact ⟨hqk rest, h.pN⟩
          · simp only [Except.ok.injEq] at he; subst he; exact ⟨hqk rest, h.pN⟩
  | subscribe b x =>
    simp only [step] at he
    split at he
    · exact subscribe_K h.k h.pN he
    · simp at he
  | unsubscribe x =>
    simp only [step] at he
    split at he
    · simp only [Except.ok.injEq] at he; subst he
      exact ⟨h.k.frame (frame_mark x s), by rw [(frame_mark x s).points]; exact h.pN⟩
    · simp at he
  | lateSubscribe b x =>
    simp only [step] at he
    split at he
    · exact subscribe_K h.k h.pN he
    · simp at he
  | lateUnsubscribe x =>
    simp only [step] at he
    split at he
    · split at he
      · simp at he
      · simp only [Except.ok.injEq] at he; subst he
        exact ⟨h.k.frame (frame_mark x s), by rw [(frame_mark x s).points]; exact h.pN⟩
    · simp at he

end Verif.Lifetime
