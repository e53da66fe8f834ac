import Verif.SpawnBuilder.Spec
/-!
# C73: a spawner spawns once
-/

namespace Verif.SpawnBuilder
open Verif.Spawner

theorem said_snoc (l : List Setter) (x : Setter) : said (l ++ [x]) = apply (said l) x := by
  cases x <;> simp [said, lastOf, apply, asPeriod, asPolicy, asAttempts, asEscalate]

theorem live_some {s : State} {i : Nat} {o : Obj} (h : live s i = some o) : s.objs[i]? = some o ∧ o.alive = true := by
  unfold live at h
  split at h
  · split at h
    · injection h with h; subst h; exact ⟨by assumption, by assumption⟩
    · cases h
  · cases h

theorem run_snoc : ∀ (ops : List Op) (op : Op) (s t : State), run s (ops ++ [op]) = some t ↔ ∃ u, run s ops = some u ∧ step u op = some t
  | [], op, s, t => by
    simp only [List.nil_append, run]
    cases h : step s op with
    | none => simp [h]
    | some u => simp [h]
  | o :: ops, op, s, t => by
    simp only [List.cons_append, run]
    cases step s o with
    | none => simp
    | some u => exact run_snoc ops op u t

/-- induction over histories, with the last operation last -/
theorem run_induction {P : List Op → State → Prop} (h0 : P [] .init) (hs : ∀ ops op u t, run .init ops = some u → P ops u → step u op = some t → P (ops ++ [op]) t)
    (ops : List Op) : ∀ t, run .init ops = some t → P ops t := by
  have : ∀ (n : Nat) (ops : List Op), ops.length = n → ∀ t, run .init ops = some t → P ops t := by
    intro n
    induction n with
    | zero =>
      intro ops hn t h
      have : ops = [] := List.length_eq_zero_iff.1 hn
      subst this
      simp only [run, Option.some.injEq] at h
      subst h; exact h0
    | succ n ih =>
      intro ops hn t h
      have hne : ops ≠ [] := fun e => by subst e; simp at hn
      rw [← List.dropLast_concat_getLast hne] at h ⊢
      obtain ⟨u, h1, h2⟩ := (run_snoc _ _ _ _).1 h
      exact hs _ _ u t h1 (ih _ (by simp [hn]) u h1) h2
  exact this ops.length ops rfl

/-- what always holds, copies or not -/
structure Inv (s : State) : Prop where
  /-- an object that is not done has its factory and has not called -/
  fresh : ∀ i o, s.objs[i]? = some o → o.done = false → o.factory ≠ none ∧ o.alive = true ∧ ∀ c, c ∈ s.calls → c.by_ ≠ i
  known : ∀ c, c ∈ s.calls → c.by_ < s.objs.length ∧ c.factory ≠ none
  once : ∀ i, s.calls.countP (fun c => c.by_ == i) ≤ 1

theorem inv_spawn {s : State} (h : Inv s) {i : Nat} {o : Obj} (ho : s.objs[i]? = some o) : Inv (spawn s i o) := by
  unfold spawn
  split
  · exact h
  · rename_i hd
    have hd : o.done = false := by simpa using hd
    obtain ⟨f1, _, f2⟩ := h.fresh i o ho hd
    have hlt := (List.getElem?_eq_some_iff.1 ho).1
    constructor
    · intro j p hp hpd
      by_cases hij : i = j
      · subst hij
        simp [hlt] at hp; subst hp; simp at hpd
      · rw [List.getElem?_set, if_neg hij] at hp
        obtain ⟨a, b, c⟩ := h.fresh j p hp hpd
        refine ⟨a, b, fun c' hc' => ?_⟩
        rcases List.mem_cons.1 hc' with e | e
        · subst e; exact hij
        · exact c c' e
    · intro c hc
      rcases List.mem_cons.1 hc with e | e
      · subst e; simp; exact ⟨hlt, f1⟩
      · have := h.known c e; simp; exact this
    · intro j
      simp only [List.countP_cons]
      by_cases e : i = j
      · subst e
        have : s.calls.countP (fun c => c.by_ == i) = 0 := List.countP_eq_zero.2 (fun c hc => by simpa using f2 c hc)
        simp [this]
      · simp [e]; exact h.once j

theorem inv_step {s t : State} (h : Inv s) {op : Op} (hs : step s op = some t) : Inv t := by
  have app : ∀ o : Obj, (o.done = false → o.factory ≠ none ∧ o.alive = true) → Inv { s with objs := s.objs ++ [o] } := by
    intro o ho
    constructor
    · intro i p hp hd
      by_cases hlt : i < s.objs.length
      · rw [List.getElem?_append_left hlt] at hp; exact h.fresh i p hp hd
      · have hl := (List.getElem?_eq_some_iff.1 hp).1
        simp at hl
        have : i = s.objs.length := by omega
        subst this
        simp at hp; subst hp
        exact ⟨(ho hd).1, (ho hd).2, fun c hc => by have := (h.known c hc).1; omega⟩
    · intro c hc; have := h.known c hc; simp; exact ⟨by omega, this.2⟩
    · exact h.once
  cases op with
  | create f =>
    simp only [step, Option.some.injEq] at hs; subst hs
    exact app _ (by simp)
  | copy i =>
    simp only [step] at hs
    split at hs
    · rename_i o ho
      injection hs with hs; subst hs
      obtain ⟨h1, h2⟩ := live_some ho
      exact app o (fun hd => ⟨(h.fresh i o h1 hd).1, h2⟩)
    · cases hs
  | set i x =>
    simp only [step] at hs
    split at hs
    · rename_i o ho
      injection hs with hs; subst hs
      obtain ⟨h1, h2⟩ := live_some ho
      refine ⟨?_, fun c hc => by have := h.known c hc; simp; exact this, h.once⟩
      intro j p hp hd
      dsimp only at hp
      rw [List.getElem?_set] at hp
      split at hp
      · rename_i e
        split at hp
        · simp at hp; subst hp; subst e; exact h.fresh i o h1 hd
        · cases hp
      · exact h.fresh j p hp hd
    · cases hs
  | spawn i =>
    simp only [step] at hs
    split at hs
    · rename_i o ho
      injection hs with hs; subst hs
      exact inv_spawn h (live_some ho).1
    · cases hs
  | destroy i =>
    simp only [step] at hs
    split at hs
    · rename_i o ho
      injection hs with hs; subst hs
      have hi := inv_spawn h (live_some ho).1
      refine ⟨?_, fun c hc => by have := hi.known c hc; simp; exact this, hi.once⟩
      intro j p hp hd
      dsimp only at hp
      rw [List.getElem?_set] at hp
      split at hp
      · split at hp
        · simp at hp; subst hp; simp at hd
        · cases hp
      · exact hi.fresh j p hp hd
    · cases hs

theorem inv_run (ops : List Op) (t : State) (h : run .init ops = some t) : Inv t :=
  run_induction (P := fun _ t => Inv t) ⟨by simp [State.init], by simp [State.init], by simp [State.init]⟩
    (fun _ _ _ _ _ i h => inv_step i h) ops t h

/-- **C73** In every execution, with copies and all: an object calls the supervisor at most once, and the factory that it hands over is one that was
given by the user, never one that has been moved out. -/
theorem C73_at_most_once (ops : List Op) (t : State) (h : run .init ops = some t) :
    (∀ i, t.calls.countP (fun c => c.by_ == i) ≤ 1) ∧ ∀ c, c ∈ t.calls → c.by_ < t.objs.length ∧ ∃ f, c.factory = some f := by
  have i := inv_run ops t h
  exact ⟨i.once, fun c hc => ⟨(i.known c hc).1, Option.ne_none_iff_exists'.1 (i.known c hc).2⟩⟩

/-! ### Without copies: exactly once, with what was said -/

theorem ends_takeWhile (i : Nat) (ops : List Op) (op : Op) :
    (ops ++ [op]).takeWhile (fun o => !o.ends i) =
      if ops.any (Op.ends i) then ops.takeWhile (fun o => !o.ends i) else if op.ends i then ops else ops ++ [op] := by
  induction ops with
  | nil => cases h : op.ends i <;> simp [h]
  | cons o ops ih =>
    simp only [List.cons_append, List.takeWhile_cons, List.any_cons]
    cases h : o.ends i
    · simp only [Bool.not_false, if_true, ih, Bool.false_or]
      split
      · rfl
      · split <;> rfl
    · simp

/-- the history of an object, when nobody copies -/
structure Told (ops : List Op) (s : State) : Prop where
  len : s.objs.length = (factories ops).length
  notYet : ∀ i, ops.any (Op.ends i) = false → (∀ c, c ∈ s.calls → c.by_ ≠ i) ∧ ∀ f, (factories ops)[i]? = some f →
    s.objs[i]? = some ⟨some f, said (settings i ops), false, true⟩
  told : ∀ i, ops.any (Op.ends i) = true → ∃ f, (factories ops)[i]? = some f ∧
    s.calls.filter (fun c => c.by_ == i) = [⟨i, some f, said (settings i (ops.takeWhile (fun o => !o.ends i)))⟩] ∧
    ∃ o, s.objs[i]? = some o ∧ o.done = true

theorem factories_snoc (ops : List Op) (op : Op) : factories (ops ++ [op]) = factories ops ++ (match op with | .create f => [f] | _ => []) := by
  cases op <;> simp [factories]

theorem settings_snoc (i : Nat) (ops : List Op) (op : Op) :
    settings i (ops ++ [op]) = settings i ops ++ (match op with | .set j x => if i = j then [x] else [] | _ => []) := by
  cases op with
  | set j x => by_cases h : i = j <;> simp [settings, h]
  | _ => simp [settings]

theorem told_calls {ops : List Op} {s : State} (h : Told ops s) {i : Nat} {f : Nat} (hf : (factories ops)[i]? = some f) {o : Obj} (ho : s.objs[i]? = some o) :
    ops.any (Op.ends i) = o.done := by
  cases he : ops.any (Op.ends i)
  · have := (h.notYet i he).2 f hf
    rw [this] at ho; injection ho with ho; subst ho; rfl
  · obtain ⟨_, _, _, p, hp, hd⟩ := h.told i he
    rw [hp] at ho; injection ho with ho; subst ho; exact hd.symm

/-- an operation on object `i` that ends it: the call has been made -/
theorem told_end {ops : List Op} {s t : State} (h : Told ops s) {i : Nat} {o : Obj} (ho : s.objs[i]? = some o) (op : Op)
    (hop : ∀ j, op.ends j = (j == i)) (hfac : factories (ops ++ [op]) = factories ops) (hset : ∀ j, settings j (ops ++ [op]) = settings j ops)
    (hc : t.calls = (spawn s i o).calls) (hob : ∀ j, j ≠ i → t.objs[j]? = s.objs[j]?) (hlen : t.objs.length = s.objs.length)
    (hdone : ∃ o', t.objs[i]? = some o' ∧ o'.done = true) : Told (ops ++ [op]) t := by
  have hlt := (List.getElem?_eq_some_iff.1 ho).1
  obtain ⟨f, hf⟩ : ∃ f, (factories ops)[i]? = some f := ⟨_, List.getElem?_eq_getElem (by have := h.len; omega)⟩
  have hd := told_calls h hf ho
  constructor
  · rw [hfac, hlen, h.len]
  · intro j hj
    simp only [List.any_append, List.any_cons, List.any_nil, Bool.or_false, Bool.or_eq_false_iff, hop] at hj
    have hji : j ≠ i := by simpa using hj.2
    obtain ⟨a, b⟩ := h.notYet j hj.1
    refine ⟨fun c hc' => ?_, fun g hg => by rw [hob j hji, hset]; exact b g (by rw [← hfac]; exact hg)⟩
    rw [hc] at hc'
    unfold spawn at hc'
    split at hc'
    · exact a c hc'
    · rcases List.mem_cons.1 hc' with e | e
      · subst e; exact fun e => hji e.symm
      · exact a c e
  · intro j hj
    simp only [List.any_append, List.any_cons, List.any_nil, Bool.or_false, Bool.or_eq_true, hop] at hj
    by_cases hji : j = i
    · subst hji
      refine ⟨f, by rw [hfac]; exact hf, ?_, hdone⟩
      rw [ends_takeWhile, hc]
      unfold spawn
      cases hod : o.done
      · rw [hod] at hd
        obtain ⟨a, b⟩ := h.notYet j hd
        have := b f hf
        rw [ho] at this; injection this with this
        have z : s.calls.filter (fun c => c.by_ == j) = [] := List.filter_eq_nil_iff.2 (fun c hc => by simpa using a c hc)
        simp [hd, hop, z, this]
      · rw [hod] at hd
        obtain ⟨g, hg, hcall, _⟩ := h.told j hd
        rw [hf] at hg; injection hg with hg; subst hg
        simp [hd, hcall]
    · have hj' : ops.any (Op.ends j) = true := by
        rcases hj with hj | hj
        · exact hj
        · exact absurd (by simpa using hj) hji
      obtain ⟨g, hg, hcall, p, hp, hpd⟩ := h.told j hj'
      refine ⟨g, by rw [hfac]; exact hg, ?_, p, by rw [hob j hji]; exact hp, hpd⟩
      rw [ends_takeWhile, if_pos hj', hc]
      unfold spawn
      split
      · exact hcall
      · have : ¬ i = j := fun e => hji e.symm
        simp [this]; exact hcall

theorem told_run (ops : List Op) : ∀ t, run .init ops = some t → NoCopies ops → Told ops t := by
  refine run_induction (P := fun ops t => NoCopies ops → Told ops t) ?_ ?_ ops
  · intro _
    exact ⟨rfl, by simp [State.init, factories], by simp⟩
  · intro ops op s t _ ih hs hn
    have h := ih (fun i hi => hn i (by simp [hi]))
    cases op with
    | create f =>
      simp only [step, Option.some.injEq] at hs; subst hs
      have hfac := factories_snoc ops (.create f)
      have hend : ∀ i, (ops ++ [Op.create f]).any (Op.ends i) = ops.any (Op.ends i) := fun i => by simp [Op.ends]
      constructor
      · rw [hfac]; simp [h.len]
      · intro i hi
        rw [hend] at hi
        obtain ⟨a, b⟩ := h.notYet i hi
        refine ⟨a, fun g hg => ?_⟩
        rw [hfac] at hg
        rw [settings_snoc]
        simp only [List.append_nil]
        by_cases hlt : i < (factories ops).length
        · rw [List.getElem?_append_left hlt] at hg
          rw [List.getElem?_append_left (by rw [h.len]; exact hlt)]; exact b g hg
        · have hl := (List.getElem?_eq_some_iff.1 hg).1
          simp at hl
          have : i = (factories ops).length := by omega
          subst this
          simp at hg; subst hg
          rw [← h.len]
          have hz : settings s.objs.length ops = [] := by
            -- nothing can be said to an object that does not exist
            have : ∀ ops (t : State), run .init ops = some t → ∀ j, t.objs.length ≤ j → settings j ops = [] := by
              intro ops
              refine run_induction (P := fun ops (t : State) => ∀ j, t.objs.length ≤ j → settings j ops = []) (by simp [settings]) ?_ ops
              intro ops op u t _ ih hst j hj
              rw [settings_snoc]
              have hlen : u.objs.length ≤ t.objs.length := by
                cases op <;> simp only [step] at hst
                · injection hst with hst; subst hst; simp
                all_goals
                  split at hst
                  · injection hst with hst; subst hst
                    first
                    | (simp; done)
                    | (simp [spawn]; split <;> simp)
                  · cases hst
              rw [ih j (by omega)]
              cases op with
              | set k x =>
                simp only [step] at hst
                split at hst
                · rename_i o ho
                  injection hst with hst; subst hst
                  have := (List.getElem?_eq_some_iff.1 (live_some ho).1).1
                  simp at hj
                  have : ¬ j = k := by omega
                  simp [this]
                · cases hst
              | _ => rfl
            exact this ops s (by assumption) _ (Nat.le_refl _)
          rw [hz]
          simp [said, lastOf, Cfg.default]
      · intro i hi
        rw [hend] at hi
        obtain ⟨g, a, b, o, c, d⟩ := h.told i hi
        refine ⟨g, ?_, by rw [ends_takeWhile, if_pos hi]; exact b, o, ?_, d⟩
        · rw [hfac, List.getElem?_append_left (List.getElem?_eq_some_iff.1 a).1]; exact a
        · rw [List.getElem?_append_left (List.getElem?_eq_some_iff.1 c).1]; exact c
    | copy i => exact absurd (List.mem_append_right _ (List.mem_singleton.2 rfl)) (hn i)
    | set i x =>
      simp only [step] at hs
      split at hs
      · rename_i o ho
        injection hs with hs; subst hs
        obtain ⟨h1, h2⟩ := live_some ho
        have hfac : factories (ops ++ [.set i x]) = factories ops := by simp [factories_snoc]
        have hend : ∀ j, (ops ++ [Op.set i x]).any (Op.ends j) = ops.any (Op.ends j) := fun j => by simp [Op.ends]
        have hlt := (List.getElem?_eq_some_iff.1 h1).1
        constructor
        · simp [hfac, h.len]
        · intro j hj
          rw [hend] at hj
          obtain ⟨a, b⟩ := h.notYet j hj
          refine ⟨a, fun f hf => ?_⟩
          rw [hfac] at hf
          have hb := b f hf
          rw [settings_snoc]
          dsimp only
          rw [List.getElem?_set]
          by_cases e : i = j
          · subst e
            rw [h1] at hb; injection hb with hb; subst hb
            simp [hlt, said_snoc]
          · have e' : ¬ j = i := fun h => e h.symm
            simp [e, e', hb]
        · intro j hj
          rw [hend] at hj
          obtain ⟨f, a, b, p, c, d⟩ := h.told j hj
          refine ⟨f, by rw [hfac]; exact a, by rw [ends_takeWhile, if_pos hj]; exact b, ?_⟩
          dsimp only
          rw [List.getElem?_set]
          by_cases e : i = j
          · subst e
            rw [h1] at c; injection c with c; subst c
            exact ⟨{ o with cfg := apply o.cfg x }, by simp [hlt], d⟩
          · exact ⟨p, by simp [e, c], d⟩
      · cases hs
    | spawn i =>
      simp only [step] at hs
      split at hs
      · rename_i o ho
        injection hs with hs; subst hs
        obtain ⟨h1, h2⟩ := live_some ho
        have hlt := (List.getElem?_eq_some_iff.1 h1).1
        refine told_end h h1 (.spawn i) (fun j => rfl) (by simp [factories_snoc]) (fun j => by simp [settings_snoc]) rfl ?_ ?_ ?_
        · intro j hj
          have : ¬ i = j := fun e => hj e.symm
          simp only [spawn]
          split
          · rfl
          · simp [List.getElem?_set, this]
        · simp only [spawn]; split <;> simp
        · simp only [spawn]
          split
          · rename_i hd; exact ⟨o, h1, hd⟩
          · exact ⟨_, by simp [List.getElem?_set, hlt]; rfl, rfl⟩
      · cases hs
    | destroy i =>
      simp only [step] at hs
      split at hs
      · rename_i o ho
        injection hs with hs; subst hs
        obtain ⟨h1, h2⟩ := live_some ho
        have hlt := (List.getElem?_eq_some_iff.1 h1).1
        refine told_end h h1 (.destroy i) (fun j => rfl) (by simp [factories_snoc]) (fun j => by simp [settings_snoc]) rfl ?_ ?_ ?_
        · intro j hj
          have : ¬ i = j := fun e => hj e.symm
          simp only [spawn]
          split <;> simp [List.getElem?_set, this]
        · simp only [spawn]; split <;> simp
        · refine ⟨⟨none, o.cfg, true, false⟩, ?_, rfl⟩
          simp only [spawn]
          split <;> simp [List.getElem?_set, hlt]
      · cases hs

/-- **C73** If nobody copies a spawner: as soon as it has been told to spawn, or at the end of its life at the latest, the supervisor has been
called exactly once for it, with the factory given and with what had been said last about every setting until then, or the default; before
that it has not been called. -/
theorem C73_exactly_once (ops : List Op) (hn : NoCopies ops) (t : State) (h : run .init ops = some t) (i f : Nat) (hf : (factories ops)[i]? = some f) :
    t.calls.filter (fun c => c.by_ == i) =
      if ops.any (Op.ends i) then [⟨i, some f, said (settings i (ops.takeWhile (fun o => !o.ends i)))⟩] else [] := by
  have r := told_run ops t h hn
  split
  · rename_i he
    obtain ⟨g, a, b, _⟩ := r.told i he
    rw [hf] at a; injection a with a; subst a; exact b
  · rename_i he
    exact List.filter_eq_nil_iff.2 (fun c hc => by simpa using (r.notYet i (by simpa using he)).1 c hc)

/-- **C73** And there is no other way to be called: whoever has called is one of the spawners made. -/
theorem C73_nobody_else (ops : List Op) (hn : NoCopies ops) (t : State) (h : run .init ops = some t) (c : Call) (hc : c ∈ t.calls) :
    ∃ f, (factories ops)[c.by_]? = some f ∧ c.factory = some f ∧ ops.any (Op.ends c.by_) = true := by
  have r := told_run ops t h hn
  cases he : ops.any (Op.ends c.by_)
  · exact absurd rfl ((r.notYet _ he).1 c hc)
  · obtain ⟨f, a, b, _⟩ := r.told _ he
    have : c ∈ t.calls.filter (fun d => d.by_ == c.by_) := List.mem_filter.2 ⟨hc, by simp⟩
    rw [b] at this
    simp at this
    exact ⟨f, a, by rw [this], rfl⟩

/-- **C73** Every object can be used until its end, whatever has happened to it before, spawning included. -/
theorem C73_usable (ops : List Op) (t : State) (h : run .init ops = some t) (i : Nat) (hi : i < t.objs.length) (hd : .destroy i ∉ ops) (op : Op)
    (hop : (∃ x, op = .set i x) ∨ op = .spawn i ∨ op = .destroy i ∨ op = .copy i) : ∃ u, step t op = some u := by
  have key : ∀ ops (t : State), run .init ops = some t → ∀ i o, t.objs[i]? = some o → .destroy i ∉ ops → o.alive = true := by
    intro ops
    refine run_induction (P := fun ops (t : State) => ∀ i o, t.objs[i]? = some o → .destroy i ∉ ops → o.alive = true) (by simp [State.init]) ?_ ops
    intro ops op u t hu ih hst i o ho hd
    have hd' : Op.destroy i ∉ ops := fun e => hd (by simp [e])
    have app : ∀ p : Obj, p.alive = true → (u.objs ++ [p])[i]? = some o → o.alive = true := by
      intro p hp hh
      by_cases hlt : i < u.objs.length
      · rw [List.getElem?_append_left hlt] at hh; exact ih i o hh hd'
      · have hl := (List.getElem?_eq_some_iff.1 hh).1
        simp at hl
        have : i = u.objs.length := by omega
        subst this
        simp at hh; subst hh; exact hp
    have st : ∀ (j : Nat) (p : Obj), p.alive = true → (u.objs.set j p)[i]? = some o → o.alive = true := by
      intro j p hp hh
      rw [List.getElem?_set] at hh
      split at hh
      · split at hh
        · injection hh with hh; subst hh; exact hp
        · cases hh
      · exact ih i o hh hd'
    cases op <;> simp only [step] at hst
    · injection hst with hst; subst hst; exact app _ rfl ho
    · split at hst
      · rename_i p hp
        injection hst with hst; subst hst; exact app p (live_some hp).2 ho
      · cases hst
    · split at hst
      · rename_i p hp
        injection hst with hst; subst hst; exact st _ { p with cfg := apply p.cfg _ } (live_some hp).2 ho
      · cases hst
    · split at hst
      · rename_i p hp
        injection hst with hst; subst hst
        unfold spawn at ho
        split at ho
        · exact ih i o ho hd'
        · exact st _ { p with done := true, factory := none } (live_some hp).2 ho
      · cases hst
    · rename_i j
      split at hst
      · rename_i p hp
        injection hst with hst; subst hst
        have hij : ¬ j = i := fun e => hd (by simp [e])
        dsimp only at ho
        rw [List.getElem?_set, if_neg hij] at ho
        unfold spawn at ho
        split at ho
        · exact ih i o ho hd'
        · rw [List.getElem?_set, if_neg hij] at ho; exact ih i o ho hd'
      · cases hst
  have ho : t.objs[i]? = some t.objs[i] := List.getElem?_eq_getElem hi
  have ha := key ops t h i _ ho hd
  have hl : live t i = some t.objs[i] := by simp [live, ho, ha]
  rcases hop with ⟨x, e⟩ | e | e | e <;> subst e <;> simp [step, hl]

/-- **C73 fails with copies.** `auto s = sup.spawn(factory).max_attempts(3);` makes a copy: the temporary spawns at the end of the statement and the
variable spawns again, so the supervisor has two spawners for one factory. -/
theorem C73_kept_chain_counterexample (f : Nat) :
    ∃ t, run .init [.create f, .set 0 (.attempts 3), .copy 0, .destroy 0, .spawn 1, .destroy 1] = some t ∧
      t.calls = [⟨1, some f, ⟨.normalOnly, 15, 3, false⟩⟩, ⟨0, some f, ⟨.normalOnly, 15, 3, false⟩⟩] := by
  exact ⟨_, rfl, rfl⟩

/-- **C73, what is said afterwards is lost.** A setting made after `spawn()` has no effect, whoever makes it. -/
theorem C73_late_setting (s : State) (i : Nat) (o : Obj) (ho : s.objs[i]? = some o) (hd : o.done = true) (x : Setter) (t : State)
    (h : step s (.set i x) = some t) : t.calls = s.calls ∧ ∀ u, step t (.spawn i) = some u → u.calls = s.calls := by
  simp only [step] at h
  split at h
  · rename_i p hp
    have := (live_some hp).1
    rw [ho] at this; injection this with this; subst this
    injection h with h; subst h
    refine ⟨rfl, fun u hu => ?_⟩
    simp only [step] at hu
    split at hu
    · rename_i q hq
      have hq := (live_some hq).1
      dsimp only at hq
      rw [List.getElem?_set] at hq
      simp at hq
      obtain ⟨_, hq⟩ := hq
      injection hu with hu; subst hu
      simp [spawn, ← hq, hd]
    · cases hu
  · cases h

/-- a chain with settings said twice and an explicit `spawn`; and one that is spawned by its end -/
example : ∃ t, run .init [.create 7, .set 0 (.attempts 3), .set 0 (.policy .always), .set 0 (.attempts 5), .spawn 0, .set 0 (.attempts 9), .destroy 0,
    .create 8, .destroy 1] = some t ∧ t.calls = [⟨1, some 8, ⟨.normalOnly, 15, 0, false⟩⟩, ⟨0, some 7, ⟨.always, 15, 5, false⟩⟩] := ⟨_, rfl, rfl⟩

end Verif.SpawnBuilder
