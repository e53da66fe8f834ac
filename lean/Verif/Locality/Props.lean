import Verif.Locality.Spec

/-! # Property C47: localities -/

namespace Verif.Locality

/-- what holds in every tree built -/
structure Inv (t : Tree) : Prop where
  parentLt : ∀ (s : Nat) r p, t[s]? = some r → r.parent = some p → p < s
  leaderLe : ∀ (s : Nat) r, t[s]? = some r → r.leader ≤ s
  step : ∀ (s : Nat) r, t[s]? = some r →
    (∃ p ps, r.parent = some p ∧ t[p]? = some ps ∧ ps.loc = r.loc ∧ r.leader = ps.leader) ∨
    (r.leader = s ∧ ∀ p ps, r.parent = some p → t[p]? = some ps → ps.loc ≠ r.loc)

theorem get_append {t : Tree} {x y : Sup} {s : Nat} (h : (t ++ [x])[s]? = some y) :
    t[s]? = some y ∨ (s = t.length ∧ y = x) := by
  by_cases hs : s < t.length
  · rw [List.getElem?_append_left hs] at h; exact .inl h
  · right
    rw [List.getElem?_append_right (by omega)] at h
    cases hk : s - t.length with
    | zero => rw [hk] at h; simp at h; exact ⟨by omega, h.symm⟩
    | succ k => rw [hk] at h; simp at h

theorem get_mono {t : Tree} {x y : Sup} {s : Nat} (h : t[s]? = some y) : (t ++ [x])[s]? = some y := by
  rw [List.getElem?_append_left (List.getElem?_eq_some_iff.1 h).1]; exact h

theorem inv_append {t : Tree} (hi : Inv t) (x : Sup) (hp : ∀ p, x.parent = some p → p < t.length)
    (hl : x.leader ≤ t.length)
    (hs : (∃ p ps, x.parent = some p ∧ t[p]? = some ps ∧ ps.loc = x.loc ∧ x.leader = ps.leader) ∨
      (x.leader = t.length ∧ ∀ p ps, x.parent = some p → t[p]? = some ps → ps.loc ≠ x.loc)) :
    Inv (t ++ [x]) := by
  constructor
  · intro s r p hr hpp
    rcases get_append hr with h | ⟨h, rfl⟩
    · exact hi.parentLt s r p h hpp
    · rw [h]; exact hp p hpp
  · intro s r hr
    rcases get_append hr with h | ⟨h, rfl⟩
    · exact hi.leaderLe s r h
    · rw [h]; exact hl
  · intro s r hr
    rcases get_append hr with h | ⟨h, rfl⟩
    · rcases hi.step s r h with ⟨p, ps, h1, h2, h3, h4⟩ | ⟨h1, h2⟩
      · exact .inl ⟨p, ps, h1, get_mono h2, h3, h4⟩
      · refine .inr ⟨h1, ?_⟩
        intro p ps hpp hps
        have hlt := hi.parentLt s r p h hpp
        have hsl := (List.getElem?_eq_some_iff.1 h).1
        rcases get_append hps with h' | ⟨h', _⟩
        · exact h2 p ps hpp h'
        · omega
    · subst h
      rcases hs with ⟨p, ps, h1, h2, h3, h4⟩ | ⟨h1, h2⟩
      · exact .inl ⟨p, ps, h1, get_mono h2, h3, h4⟩
      · refine .inr ⟨h1, ?_⟩
        intro p ps hpp hps
        rcases get_append hps with h' | ⟨h', _⟩
        · exact h2 p ps hpp h'
        · have := hp p hpp; omega

theorem inv_create {t t' : Tree} {p s : Option Nat} (hi : Inv t) (h : create t p s = some t') : Inv t' := by
  unfold create at h
  cases p with
  | none =>
    simp only [Option.some.injEq] at h
    subst h
    exact inv_append hi _ (by simp) (Nat.le_refl _) (.inr ⟨rfl, by simp⟩)
  | some p =>
    simp only at h
    cases hp : t[p]? with
    | none => simp [hp] at h
    | some ps =>
      rw [hp] at h
      simp only [Option.some.injEq] at h
      generalize locOf s (rootOf t t.length p) = loc at h
      subst h
      have hlt := (List.getElem?_eq_some_iff.1 hp).1
      apply inv_append hi
      · intro q hq; simp at hq; omega
      · simp only
        split
        · have := hi.leaderLe p ps hp; omega
        · exact Nat.le_refl _
      · simp only
        split
        · rename_i hc; exact .inl ⟨p, ps, rfl, hp, hc, rfl⟩
        · rename_i hc
          refine .inr ⟨rfl, ?_⟩
          intro q qs hq hqs
          simp at hq; subst hq
          rw [hp] at hqs; simp at hqs; subst hqs; exact hc

theorem inv_build (ops : List (Option Nat × Option Nat)) (t t' : Tree) (hi : Inv t) (h : build t ops = some t') : Inv t' := by
  induction ops generalizing t with
  | nil => simp only [build, Option.some.injEq] at h; subst h; exact hi
  | cons op ops ih =>
    obtain ⟨p, s⟩ := op
    simp only [build] at h
    split at h
    · simp at h
    · rename_i t1 hc; exact ih t1 (inv_create hi hc) h

theorem inv_nil : Inv [] := ⟨by simp, by simp, by simp⟩

theorem leader_group {t : Tree} (hi : Inv t) : ∀ (s : Nat) r, t[s]? = some r →
    Connected t s r.leader ∧ Topmost t r.leader ∧ ∃ lr, t[r.leader]? = some lr ∧ lr.leader = r.leader ∧ lr.loc = r.loc := by
  intro s
  induction s using Nat.strongRecOn with
  | ind s ih =>
    intro r hr
    have hlt := (List.getElem?_eq_some_iff.1 hr).1
    rcases hi.step s r hr with ⟨p, ps, h1, h2, h3, h4⟩ | ⟨h1, h2⟩
    · obtain ⟨c, tm, lr, k1, k2, k3⟩ := ih p (hi.parentLt s r p hr h1) ps h2
      rw [h4]
      exact ⟨.trans _ _ _ (.link s p ⟨r, ps, hr, h2, h1, h3.symm⟩) c, tm, lr, k1, k2, k3.trans h3⟩
    · rw [h1]
      refine ⟨.refl s hlt, ?_, r, hr, h1, rfl⟩
      rintro p ⟨cs, ps, k1, k2, k3, k4⟩
      rw [hr] at k1; simp at k1; subst k1
      exact h2 p ps k3 k2 k4.symm

theorem connected_leader {t : Tree} (hi : Inv t) {a b : Nat} (h : Connected t a b) :
    ∃ ra rb, t[a]? = some ra ∧ t[b]? = some rb ∧ ra.leader = rb.leader := by
  induction h with
  | refl s hs => exact ⟨t[s], t[s], List.getElem?_eq_getElem hs, List.getElem?_eq_getElem hs, rfl⟩
  | link c p hl =>
    obtain ⟨cs, ps, h1, h2, h3, h4⟩ := hl
    refine ⟨cs, ps, h1, h2, ?_⟩
    rcases hi.step c cs h1 with ⟨p', ps', k1, k2, k3, k4⟩ | ⟨k1, k2⟩
    · rw [h3] at k1; simp at k1; subst k1; rw [h2] at k2; simp at k2; subst k2; exact k4
    · exact absurd h4.symm (k2 p ps h3 h2)
  | symm a b _ ih => obtain ⟨ra, rb, h1, h2, h3⟩ := ih; exact ⟨rb, ra, h2, h1, h3.symm⟩
  | trans a b c _ _ ih1 ih2 =>
    obtain ⟨ra, rb, h1, h2, h3⟩ := ih1
    obtain ⟨rb', rc, k1, k2, k3⟩ := ih2
    rw [h2] at k1; simp at k1; subst k1
    exact ⟨ra, rc, h1, k2, h3.trans k3⟩

/-- **C47.** In every supervisor tree (forest), however created: two supervisors share their leader,
i.e. the queue and the subscription table, exactly when a chain of parent links inside one locality
connects them; and the leader is the topmost supervisor of that group. -/
theorem C47_leader_is_group (ops : List (Option Nat × Option Nat)) (t : Tree) (hb : build [] ops = some t)
    (a b : Nat) (ra rb : Sup) (ha : t[a]? = some ra) (hb' : t[b]? = some rb) :
    (ra.leader = rb.leader ↔ Connected t a b) ∧ Connected t a ra.leader ∧ Topmost t ra.leader := by
  have hi := inv_build ops [] t inv_nil hb
  obtain ⟨ca, ta, _⟩ := leader_group hi a ra ha
  obtain ⟨cb, _, _⟩ := leader_group hi b rb hb'
  refine ⟨⟨?_, ?_⟩, ca, ta⟩
  · intro h; exact .trans _ _ _ ca (h ▸ .symm _ _ cb)
  · intro h
    obtain ⟨ra', rb', h1, h2, h3⟩ := connected_leader hi h
    rw [ha] at h1; rw [hb'] at h2; simp at h1 h2; subst h1; subst h2; exact h3

/-- **C47, routing.** A message is dispatched by the loop of the sender's group only if its
destination has the locality of that group, and every destination of the sender's own group is
dispatched there. -/
theorem C47_local_dispatch (ops : List (Option Nat × Option Nat)) (t : Tree) (hb : build [] ops = some t)
    (s d : Nat) (rs rd : Sup) (hs : t[s]? = some rs) (hd : t[d]? = some rd) :
    (route t rs.leader d = some .dispatch ↔ rd.loc = rs.loc) ∧
    (Connected t s d → route t rs.leader d = some .dispatch) ∧
    (rd.loc ≠ rs.loc → route t rs.leader d = some (.enqueue d)) := by
  have hi := inv_build ops [] t inv_nil hb
  obtain ⟨_, _, lr, h1, _, h3⟩ := leader_group hi s rs hs
  have key : route t rs.leader d = some (if rd.loc = rs.loc then .dispatch else .enqueue d) := by
    simp only [route, h1, hd, h3]
  have hconn : Connected t s d → rd.loc = rs.loc := by
    intro hc
    obtain ⟨ra, rb, k1, k2, k3⟩ := connected_leader hi hc
    rw [hs] at k1; rw [hd] at k2; simp at k1 k2; subst k1; subst k2
    obtain ⟨_, _, lr', j1, _, j3⟩ := leader_group hi d rd hd
    rw [← k3, h1] at j1; simp at j1; subst j1; rw [← j3, h3]
  refine ⟨?_, ?_, ?_⟩
  · rw [key]; split <;> simp_all
  · intro hc; rw [key, if_pos (hconn hc)]
  · intro hne; rw [key, if_neg hne]

/-- **C47, one event loop per tree.** If no supervisor has its own strand (the thread, ev, fltk, wx
and the plain back-ends) then the whole tree shares the queue of its root. -/
theorem C47_single_loop (ops : List (Option Nat × Option Nat)) (hops : ∀ o ∈ ops, o.2 = none) (t : Tree)
    (hb : build [] ops = some t) (c p : Nat) (cs ps : Sup) (hc : t[c]? = some cs) (hp : t[p]? = some ps)
    (hcp : cs.parent = some p) : cs.leader = ps.leader := by
  -- the locality of every supervisor is the root of its tree
  have key : ∀ (ops : List (Option Nat × Option Nat)) (t t' : Tree), (∀ o ∈ ops, o.2 = none) → Inv t →
      (∀ (s : Nat) r, t[s]? = some r → r.loc = .root r.leader ∧
        (∀ p ps, r.parent = some p → t[p]? = some ps → r.leader = ps.leader) ∧
        (∀ f, s < f → rootOf t f s = r.leader)) →
      build t ops = some t' →
      ∀ (s : Nat) r, t'[s]? = some r → ∀ p ps, r.parent = some p → t'[p]? = some ps → r.leader = ps.leader := by
    intro ops
    induction ops with
    | nil =>
      intro t t' _ _ h hb s r hr
      simp only [build, Option.some.injEq] at hb; subst hb
      exact (h s r hr).2.1
    | cons op ops ih =>
      intro t t' hops hi h hb
      obtain ⟨p, s⟩ := op
      have hs : s = none := hops (p, s) (by simp)
      subst hs
      simp only [build] at hb
      cases hcr : create t p none with
      | none => simp [hcr] at hb
      | some t1 =>
        rw [hcr] at hb
        refine ih t1 t' (fun o ho => hops o (by simp [ho])) (inv_create hi hcr) ?_ hb
        have rootMono : ∀ (x : Sup) (f s : Nat), s < t.length → rootOf (t ++ [x]) f s = rootOf t f s := by
          intro x f
          induction f with
          | zero => intro s _; rfl
          | succ f ihf =>
            intro s hs
            simp only [rootOf]
            rw [List.getElem?_append_left hs]
            have hsome : t[s]? = some t[s] := List.getElem?_eq_getElem hs
            rw [hsome]
            rcases hts : t[s] with ⟨_ | q, l, ld⟩
            · rfl
            · simp only
              have := hi.parentLt s _ q hsome (by rw [hts])
              exact ihf q (by omega)
        unfold create at hcr
        cases p with
        | none =>
          simp only [Option.some.injEq] at hcr
          subst hcr
          intro s r hr
          rcases get_append hr with h' | ⟨h', rfl⟩
          · obtain ⟨a, b, c⟩ := h s r h'
            have hsl := (List.getElem?_eq_some_iff.1 h').1
            refine ⟨a, ?_, fun f hf => by rw [rootMono _ _ _ hsl]; exact c f hf⟩
            intro p ps hpp hps
            have := hi.parentLt s r p h' hpp
            rcases get_append hps with k | ⟨k, _⟩
            · exact b p ps hpp k
            · omega
          · subst h'
            refine ⟨rfl, by simp, ?_⟩
            intro f hf
            cases f with
            | zero => omega
            | succ f => simp [rootOf]
        | some p =>
          simp only at hcr
          cases hp : t[p]? with
          | none => simp [hp] at hcr
          | some ps =>
            rw [hp] at hcr
            simp only [Option.some.injEq] at hcr
            obtain ⟨a, b, c⟩ := h p ps hp
            have hplt := (List.getElem?_eq_some_iff.1 hp).1
            rw [c t.length hplt, locOf, if_pos a] at hcr
            subst hcr
            intro s r hr
            rcases get_append hr with h' | ⟨h', rfl⟩
            · obtain ⟨a', b', c'⟩ := h s r h'
              have hsl := (List.getElem?_eq_some_iff.1 h').1
              refine ⟨a', ?_, fun f hf => by rw [rootMono _ _ _ hsl]; exact c' f hf⟩
              intro q qs hpp hqs
              have := hi.parentLt s r q h' hpp
              rcases get_append hqs with k | ⟨k, _⟩
              · exact b' q qs hpp k
              · omega
            · subst h'
              refine ⟨rfl, ?_, ?_⟩
              · intro q qs hq hqs
                simp at hq; subst hq
                rcases get_append hqs with k | ⟨k, _⟩
                · rw [hp] at k; simp at k; subst k; rfl
                · omega
              · intro f hf
                cases f with
                | zero => omega
                | succ f =>
                  simp only [rootOf, List.getElem?_concat_length]
                  rw [rootMono _ _ _ hplt]; exact c f (by omega)
  exact key ops [] t hops inv_nil (by simp) hb c cs hc p ps hcp hp

/-- an asio tree: root and its child on strand 1, a grandchild on strand 2 with a child there -/
def exTree : List (Option Nat × Option Nat) := [(none, some 1), (some 0, some 1), (some 1, some 2), (some 2, some 2)]

example : ∃ t, build [] exTree = some t ∧ t.map (·.leader) = [0, 0, 2, 2] ∧ route t 0 3 = some (.enqueue 3) := by
  refine ⟨_, rfl, by decide, by decide⟩

example : ∃ t, build [] [(none, none), (some 0, none), (some 1, none)] = some t ∧ t.map (·.leader) = [0, 0, 0] := by
  refine ⟨_, rfl, by decide⟩

/-- Groups are not determined by the locality alone: with a supervisor on another strand between
them, two supervisors of one strand have different leaders, and yet a message from one to the other
is dispatched by the sender's leader, whose subscription table does not know the receiver. -/
theorem C47_split_strand_counterexample :
    ∃ t rs rd, build [] [(none, some 1), (some 0, some 2), (some 1, some 1)] = some t ∧
      t[0]? = some rs ∧ t[2]? = some rd ∧ rs.loc = rd.loc ∧ rs.leader ≠ rd.leader ∧
      ¬ Connected t 0 2 ∧ route t rs.leader 2 = some .dispatch := by
  refine ⟨_, _, _, rfl, rfl, rfl, rfl, by decide, ?_, by decide⟩
  intro h
  have hi := inv_build [(none, some 1), (some 0, some 2), (some 1, some 1)] [] _ inv_nil rfl
  obtain ⟨ra, rb, h1, h2, h3⟩ := connected_leader hi h
  revert h3
  simp at h1 h2
  subst h1; subst h2
  decide

end Verif.Locality
