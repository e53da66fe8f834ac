import Verif.RegPlugin.Inv
/-!
# What the log of the registry plugin tells
-/

namespace Verif.RegPlugin
open Verif

variable {c : Conf} {σ σ' : State}

/-- all events of a log are truthful when they happen -/
def Expl : List Ev → Prop
  | [] => True
  | e :: l => Truthful e l ∧ Expl l

theorem Truthful.mono {e : Ev} {l l' : List Ev} (h : Truthful e l) (hl : ∀ x, x ∈ l → x ∈ l') : Truthful e l' := by
  unfold Truthful at h ⊢
  split <;> simp only at h
  · obtain ⟨h1, a, h2, h3⟩ := h
    exact ⟨h1, a, h2, hl _ h3⟩
  · obtain ⟨a, h2, h3, h4⟩ := h
    exact ⟨a, h2, hl _ h3, hl _ h4⟩
  · trivial

theorem Expl.append {es l : List Ev} (h : Expl l) (he : ∀ e, e ∈ es → Truthful e l) : Expl (es ++ l) := by
  induction es with
  | nil => exact h
  | cons e es ih =>
    exact ⟨(he e (by simp)).mono (fun x hx => by simp [hx]), ih (fun e' h' => he e' (by simp [h']))⟩

theorem Expl.split {l : List Ev} (h : Expl l) {pre post : List Ev} {e : Ev} (hl : l = pre ++ e :: post) : Truthful e post := by
  induction pre generalizing l with
  | nil => subst hl; exact h.1
  | cons x pre ih => subst hl; exact ih h.2 rfl

theorem Expl.mem {l : List Ev} (h : Expl l) {e : Ev} (he : e ∈ l) : Truthful e l := by
  obtain ⟨pre, post, hl⟩ := List.append_of_mem he
  exact (h.split hl).mono (fun x hx => by rw [hl]; simp [hx])

/-- an event that is no call -/
theorem Truthful.of {e : Ev} {l : List Ev} (h : ∀ n ph b v, e ≠ .called n ph b v) : Truthful e l := by
  unfold Truthful
  split
  · exact absurd rfl (h _ _ _ _)
  · exact absurd rfl (h _ _ _ _)
  · trivial

theorem expl_init : Expl State.init.log := trivial

theorem expl_cons {l : List Ev} {e : Ev} (h : Expl l) (he : ∀ n ph b v, e ≠ .called n ph b v) : Expl (e :: l) := ⟨.of he, h⟩

/-- the callbacks of a link that is answered -/
theorem expl_calls {a n : Nat} {r : Srv} {t : Task} {names : List Nat} {ok : Bool} (hk : K c σ) (hr : σ.srv.find a = some r) (hcb : r.cb = .task n)
    (ht : σ.disc.find n = some t) (hn : σ.al.find (σ.vars t.v) = some names) (h : Expl σ.log) :
    Expl (callEvs σ ok names ++ .linkRes a ok :: σ.log) := by
  refine Expl.append (expl_cons h (by simp)) (fun e he => ?_)
  obtain ⟨m, t', h1, h2, h3, h4⟩ := mem_callEvs.1 he
  subst h4
  obtain ⟨op, cb⟩ := r
  simp only at hcb; subst hcb
  have e1 := hk.k2 _ _ _ hr
  have e2 := hk.k3 _ _ _ ht e1
  rw [e2] at hn
  obtain ⟨a', f1, f2⟩ := hk.k1 _ _ hn
  cases f1
  have f3 := f2 m h1
  exact ⟨a, hk.k3 _ _ _ h2 f3, by simp [f3], by simp⟩

theorem expl_found {n a : Nat} {t : Task} (h : Expl σ.log) : Expl (foundEv n t a ++ .discRes n (some a) :: σ.log) := by
  refine Expl.append (expl_cons h (by simp)) (fun e he => ?_)
  obtain ⟨-, e1⟩ := mem_foundEv.1 he
  subst e1
  exact ⟨rfl, a, rfl, by simp⟩

theorem expl_step (hk : K c σ) (h : Expl σ.log) (m : M c σ σ') : Expl σ'.log := by
  cases m
  case confL hc hs hi e =>
    obtain ⟨srv', b, e1, -⟩ := links_spec e
    subst e1
    refine h.append (fun e he => .of ?_)
    simp only [List.mem_reverse, List.mem_map] at he
    grind
  case confR hc hs hi hl e =>
    obtain ⟨regs', disc', e1, -⟩ := wants_spec e
    subst e1
    rcases linkedTo_cases c c.wants { σ with confR := true } with ⟨e, -⟩ | ⟨f1, f2, e⟩
    · rw [e]; exact h
    · rw [e]; exact expl_cons h (by simp)
  case alias => exact expl_found h
  case found => exact expl_cons (expl_found h) (by simp)
  case foundDown => exact expl_found h
  case linkTask hq hr hcb ht hn hall hst => exact expl_calls hk hr hcb ht hn h
  case linkTaskDown hq hr hcb ht hn hall hst => exact expl_calls hk hr hcb ht hn h
  case linkTaskErr hq hr hcb ht hn hall hst =>
    refine Expl.append (expl_calls hk hr hcb ht hn h) (fun e he => .of ?_)
    split at he <;> simp at he
    simp [he]
  case linkErr =>
    refine Expl.append (expl_cons h (by simp)) (fun e he => .of ?_)
    split at he <;> simp at he
    simp [he]
  case linkReg =>
    simp only [onLink, if_true]
    refine Expl.append (Expl.append (expl_cons h (by simp)) (fun e he => .of ?_)) (fun e he => .of ?_)
    · simp only [List.mem_reverse, List.mem_map] at he; grind
    · simp only [List.mem_reverse, List.mem_map] at he; grind
  case names =>
    refine Expl.append (Expl.append h (fun e he => .of ?_)) (fun e he => .of ?_)
    · simp only [List.mem_reverse, List.mem_map] at he; grind
    · simp only [List.mem_reverse, List.mem_map] at he; grind
  case namesEnd =>
    refine Expl.append (Expl.append h (fun e he => .of ?_)) (fun e he => .of ?_)
    · simp only [List.mem_reverse, List.mem_map] at he; grind
    · simp only [List.mem_reverse, List.mem_map] at he; grind
  case finI => exact expl_cons h (by simp)
  case regOk => exact expl_cons h (by simp)
  case regErr => exact expl_cons (expl_cons h (by simp)) (by simp)
  case lostInit => exact expl_cons (expl_cons h (by simp)) (by simp)
  case lostDown => exact expl_cons h (by simp)
  case linkUser => exact expl_cons h (by simp)
  case failReset => exact expl_cons h (by simp)
  case shut => exact expl_cons h (by simp)
  all_goals exact h

/-! ## Once -/

theorem count_calls {n : Nat} {ok : Bool} {names : List Nat} (hn : names.Nodup) :
    (callEvs σ ok names).countP (isCall n .linking) ≤ 1 ∧ (n ∉ names → (callEvs σ ok names).countP (isCall n .linking) = 0) := by
  unfold callEvs
  rw [List.countP_reverse]
  induction names with
  | nil => simp
  | cons m ns ih =>
    have hi := ih (List.nodup_cons.1 hn).2
    have hm := (List.nodup_cons.1 hn).1
    rw [List.filterMap_cons]
    split
    · refine ⟨hi.1, fun h => hi.2 (by grind)⟩
    · rename_i e he
      rw [List.countP_cons]
      have hx : isCall n .linking e = true → n = m := by
        split at he
        · split at he
          · injection he with he; subst he; simp [isCall]; exact fun h => h.symm
          · cases he
        · cases he
      constructor
      · split
        · rename_i h; have := hx h; subst this; have := hi.2 hm; omega
        · have := hi.1; omega
      · intro h
        have h1 := hi.2 (by grind)
        rw [h1, if_neg]
        exact fun h2 => h (by rw [hx h2]; simp)

theorem count_zero {p : Ev → Bool} {l : List Ev} (h : ∀ e, e ∈ l → p e = false) : l.countP p = 0 := by
  rw [List.countP_eq_zero]; intro e he; simp [h e he]

structure Once (σ : State) : Prop where
  an : ∀ x names, σ.al.find x = some names → names.Nodup
  o1 : ∀ n, σ.log.countP (isCall n .discovering) ≤ 1 ∧ ((∀ x, Ev.discRes n x ∉ σ.log) → σ.log.countP (isCall n .discovering) = 0)
  o2 : ∀ n, σ.log.countP (isCall n .linking) ≤ 1 ∧ (∀ t, σ.disc.find n = some t → σ.log.countP (isCall n .linking) = 0)
  o3 : ∀ a, σ.log.countP (isLinkReq a) ≤ 1 ∧ (σ.st = .initializing → σ.al.find (some a) = none → σ.log.countP (isLinkReq a) = 0)

theorem once_init : Once State.init := by
  constructor <;> simp [State.init]

/-- no event counted is added -/
def Plain (es : List Ev) : Prop := ∀ e, e ∈ es → (∀ n ph, isCall n ph e = false) ∧ ∀ a, isLinkReq a e = false

theorem Plain.count {es l : List Ev} (h : Plain es) : (∀ n ph, (es ++ l).countP (isCall n ph) = l.countP (isCall n ph)) ∧
    ∀ a, (es ++ l).countP (isLinkReq a) = l.countP (isLinkReq a) := by
  refine ⟨fun n ph => ?_, fun a => ?_⟩
  · rw [List.countP_append, count_zero (fun e he => (h e he).1 n ph), Nat.zero_add]
  · rw [List.countP_append, count_zero (fun e he => (h e he).2 a), Nat.zero_add]

theorem Once.plain {es : List Ev} (h : Once σ) (hp : Plain es) (hl : σ'.log = es ++ σ.log)
    (ha : ∀ x names, σ'.al.find x = some names → σ.al.find x = some names) (ha' : σ'.st = .initializing → σ'.al = σ.al)
    (hd : ∀ n t, σ'.disc.find n = some t → (∃ t', σ.disc.find n = some t') ∨ σ.log.countP (isCall n .linking) = 0)
    (hs : σ'.st = .initializing → σ.st = .initializing) : Once σ' := by
  obtain ⟨h1, h2, h3, h4⟩ := h
  obtain ⟨c1, c2⟩ := hp.count (l := σ.log)
  constructor
  · exact fun x names hx => h1 x names (ha x names hx)
  · intro n
    rw [hl, c1]
    exact ⟨(h2 n).1, fun hx => (h2 n).2 (fun x hm => hx x (by simp [hm]))⟩
  · intro n
    rw [hl, c1]
    refine ⟨(h3 n).1, fun t ht => ?_⟩
    rcases hd n t ht with ⟨t', h'⟩ | h'
    · exact (h3 n).2 t' h'
    · exact h'
  · intro a
    rw [hl, c2]
    refine ⟨(h4 a).1, fun hst hx => (h4 a).2 (hs hst) ?_⟩
    rw [← ha' hst]; exact hx

theorem once_calls {a n : Nat} {r : Srv} {t : Task} {names : List Nat} {ok : Bool} {es : List Ev} (hk : K c σ) (hp : Plain es)
    (hr : σ.srv.find a = some r) (hcb : r.cb = .task n) (ht : σ.disc.find n = some t) (hn : σ.al.find (σ.vars t.v) = some names)
    (hall : ∀ m, m ∈ names → ∃ t', σ.disc.find m = some t') (h : Once σ) (hl : σ'.log = es ++ (callEvs σ ok names ++ .linkRes a ok :: σ.log))
    (ha : σ'.al = σ.al) (hd : σ'.disc = eraseNames n t σ) (hs : σ'.st = σ.st) : Once σ' := by
  obtain ⟨h1, h2, h3, h4⟩ := h
  obtain ⟨c1, c2⟩ := hp.count (l := callEvs σ ok names ++ .linkRes a ok :: σ.log)
  have e1 : ∀ m, (callEvs σ ok names).countP (isCall m .discovering) = 0 := fun m => count_zero (fun e he => by
    obtain ⟨m', t', -, -, -, h⟩ := mem_callEvs.1 he; subst h; simp [isCall])
  have e2 : ∀ m, (callEvs σ ok names).countP (isLinkReq m) = 0 := fun m => count_zero (fun e he => by
    obtain ⟨m', t', -, -, -, h⟩ := mem_callEvs.1 he; subst h; simp [isLinkReq])
  have e3 := fun m => count_calls (σ := σ) (n := m) (ok := ok) (h1 _ _ hn)
  constructor
  · rw [ha]; exact h1
  · intro m
    rw [hl, c1, List.countP_append, e1, List.countP_cons]
    simp only [isCall, Bool.false_eq_true, if_false, Nat.zero_add, Nat.add_zero]
    exact ⟨(h2 m).1, fun hx => (h2 m).2 (fun x hm => hx x (by simp [hm]))⟩
  · intro m
    rw [hl, c1, List.countP_append, List.countP_cons]
    simp only [isCall, Bool.false_eq_true, if_false, Nat.add_zero]
    have f1 := e3 m
    have f2 := h3 m
    by_cases hm : m ∈ names
    · obtain ⟨t', ht'⟩ := hall m hm
      have f3 := f2.2 t' ht'
      refine ⟨by omega, fun t'' h'' => ?_⟩
      rw [hd, erase_find, hn] at h''
      simp [hm] at h''
    · have f3 := f1.2 hm
      refine ⟨by omega, fun t'' h'' => ?_⟩
      rw [hd] at h''
      have := f2.2 t'' (erase_le _ _ _ _ _ h'')
      omega
  · intro m
    rw [hl, c2, List.countP_append, e2, List.countP_cons]
    simp only [isLinkReq, Bool.false_eq_true, if_false, Nat.zero_add, Nat.add_zero]
    rw [ha, hs]
    exact h4 m

theorem once_found {n a : Nat} {t : Task} (hk : K c σ) (hq : n ∈ σ.qDisc) (h : Once σ) :
    (∀ m, (foundEv n t a ++ Ev.discRes n (some a) :: σ.log).countP (isCall m .discovering) ≤ 1 ∧
      ((∀ x, Ev.discRes m x ∉ foundEv n t a ++ Ev.discRes n (some a) :: σ.log) →
        (foundEv n t a ++ Ev.discRes n (some a) :: σ.log).countP (isCall m .discovering) = 0)) ∧
    (∀ m, (foundEv n t a ++ Ev.discRes n (some a) :: σ.log).countP (isCall m .linking) = σ.log.countP (isCall m .linking)) ∧
    (∀ m, (foundEv n t a ++ Ev.discRes n (some a) :: σ.log).countP (isLinkReq m) = σ.log.countP (isLinkReq m)) := by
  have h2 := h.o1
  refine ⟨fun m => ?_, fun m => ?_, fun m => ?_⟩
  · by_cases hm : m = n
    · subst hm
      have e := (h2 m).2 (fun x => hk.q1 m x hq)
      constructor
      · unfold foundEv; split <;> simp [List.countP_cons, isCall, e]
      · intro hx; exact absurd (hx (some a)) (by simp)
    · have hm' : ¬ n = m := fun h => hm h.symm
      have e : (foundEv n t a ++ Ev.discRes n (some a) :: σ.log).countP (isCall m .discovering) = σ.log.countP (isCall m .discovering) := by
        unfold foundEv; split <;> simp [List.countP_cons, isCall, hm']
      rw [e]
      exact ⟨(h2 m).1, fun hx => (h2 m).2 (fun x hx' => hx x (by simp [hx']))⟩
  · unfold foundEv; split <;> simp [List.countP_cons, isCall]
  · unfold foundEv; split <;> simp [List.countP_cons, isLinkReq]

theorem once_step (hk : K c σ) (hx : Expl σ.log) (h : Once σ) (m : M c σ σ') : Once σ' := by
  cases m
  case confL hc hs hi e =>
    obtain ⟨srv', b, e1, -⟩ := links_spec e
    subst e1
    refine h.plain (es := (c.links.map (fun a => Ev.linkReq a .user)).reverse) ?_ rfl (fun _ _ h => h) (fun _ => rfl) (fun n t h => .inl ⟨t, h⟩) id
    intro e he
    simp only [List.mem_reverse, List.mem_map] at he
    obtain ⟨a, -, rfl⟩ := he
    exact ⟨fun _ _ => rfl, fun _ => rfl⟩
  case confR hc hs hi hl e =>
    obtain ⟨regs', disc', e1, e2, e3, -⟩ := wants_spec e
    obtain ⟨g1, g2, g3, g4, g5, g6, g7, g8, g9⟩ := hk.q0 hc
    have hz : ∀ n, σ.log.countP (isCall n .linking) = 0 := fun n => count_zero (fun e he => by
      cases hb : isCall n .linking e with
      | false => rfl
      | true =>
        have := hx.mem he
        unfold isCall at hb
        split at hb
        · simp at hb; obtain ⟨rfl, rfl⟩ := hb
          obtain ⟨a, -, h2, -⟩ := this
          exact absurd h2 (g7 _ _)
        · cases hb)
    subst e1
    rcases linkedTo_cases c c.wants { σ with confR := true } with ⟨e, -⟩ | ⟨f1, f2, e⟩
    · rw [e]
      exact h.plain (es := []) (fun e he => by simp at he) rfl (fun _ _ h => h) (fun _ => rfl) (fun n t h => .inr (hz n)) id
    · rw [e]
      refine h.plain (es := [.linkReq c.reg .registry]) (fun e he => ?_) rfl (fun _ _ h => h) (fun _ => rfl) (fun n t h => .inr (hz n)) id
      simp only [List.mem_singleton] at he; subst he
      exact ⟨fun _ _ => rfl, fun _ => rfl⟩
  case alias n a t names hq ht hs ha =>
    obtain ⟨c1, c2, c3⟩ := once_found (a := a) (t := t) hk hq h
    refine ⟨?_, c1, fun m => by simp only [c2]; exact h.o2 m, fun m => ?_⟩
    · intro x ns hx
      simp only [AMap.find_set] at hx
      split at hx
      · injection hx with hx; subst hx
        have := h.an _ _ ha
        rw [List.nodup_append]
        refine ⟨this, by simp, ?_⟩
        intro y hy z hz hyz
        simp only [List.mem_singleton] at hz
        subst hz; subst hyz
        obtain ⟨a', f1, f2⟩ := hk.k1 _ _ ha
        exact hk.q1 _ _ hq (f2 _ hy)
      · exact h.an _ _ hx
    · simp only [c3]
      refine ⟨(h.o3 m).1, fun hs hf => (h.o3 m).2 hs ?_⟩
      simp only [AMap.find_set] at hf
      split at hf
      · cases hf
      · exact hf
  case found n a t hq ht hs ha hr =>
    obtain ⟨c1, c2, c3⟩ := once_found (a := a) (t := t) hk hq h
    constructor
    · intro x ns hx
      simp only [AMap.find_set] at hx
      split at hx
      · injection hx with hx; subst hx; simp
      · exact h.an _ _ hx
    · intro m
      have := c1 m
      rw [List.countP_cons]
      simp only [isCall, Bool.false_eq_true, if_false, Nat.add_zero]
      exact ⟨this.1, fun hx => this.2 (fun x hm => hx x (by simp [hm]))⟩
    · intro m
      rw [List.countP_cons]
      simp only [isCall, Bool.false_eq_true, if_false, Nat.add_zero, c2]
      exact h.o2 m
    · intro m
      rw [List.countP_cons, c3]
      by_cases hm : m = a
      · subst hm
        have := (h.o3 m).2 hs ha
        rw [this]
        simp [isLinkReq]
      · have hm' : ¬ a = m := fun h => hm h.symm
        simp only [isLinkReq, hm', decide_false, Bool.false_eq_true, if_false, Nat.add_zero]
        refine ⟨(h.o3 m).1, fun hs hf => (h.o3 m).2 hs ?_⟩
        simp only [AMap.find_set] at hf
        split at hf
        · cases hf
        · exact hf
  case foundDown n a t d hq hfd hdk ht hs =>
    obtain ⟨c1, c2, c3⟩ := once_found (a := a) (t := t) hk hq h
    refine ⟨h.an, c1, fun m => ?_, fun m => by simp only [c3]; exact h.o3 m⟩
    simp only [c2]
    refine ⟨(h.o2 m).1, fun t' ht' => (h.o2 m).2 t' ?_⟩
    rcases ‹∀ m, AMap.find d m = σ.disc.find m ∨ AMap.find d m = none› m with h | h <;> rw [h] at ht'
    · exact ht'
    · cases ht'
  case linkTask hq hr hcb ht hn hall hst =>
    exact once_calls (es := []) hk (fun e he => by simp at he) hr hcb ht hn hall h rfl rfl rfl rfl
  case linkTaskDown hq hr hcb ht hn hall hst =>
    exact once_calls (es := []) hk (fun e he => by simp at he) hr hcb ht hn hall h rfl rfl rfl rfl
  case linkTaskErr hq hr hcb ht hn hall hst =>
    refine once_calls hk ?_ hr hcb ht hn hall h rfl rfl rfl rfl
    intro e he
    split at he <;> simp at he
    subst he; exact ⟨fun _ _ => rfl, fun _ => rfl⟩
  case linkErr a r hq hr hcb =>
    refine h.plain (es := (if σ.initReq then [.answer false] else []) ++ [.linkRes a false]) ?_ (by simp) (fun _ _ h => h) (fun _ => rfl)
      (fun n t h => .inl ⟨t, h⟩) id
    intro e he
    split at he <;> simp at he
    · rcases he with rfl | rfl <;> exact ⟨fun _ _ => rfl, fun _ => rfl⟩
    · subst he; exact ⟨fun _ _ => rfl, fun _ => rfl⟩
  case linkReg a r hq hr hcb =>
    refine h.plain (es := (σ.disc.map (fun p : Nat × Task => Ev.discover p.1 p.2.delayed)).reverse ++
        ((σ.regs.map (fun p : Nat × Reg => Ev.register p.1 p.2.a)).reverse ++ [.linkRes a true])) ?_ (by simp [onLink]) (fun _ _ h => h) (fun _ => rfl)
      (fun n t h => ?_) id
    · intro e he
      simp only [List.mem_append, List.mem_reverse, List.mem_map, List.mem_singleton] at he
      rcases he with ⟨p, -, rfl⟩ | ⟨p, -, rfl⟩ | rfl <;> exact ⟨fun _ _ => rfl, fun _ => rfl⟩
    · simp only [onLink, if_true, go_find] at h
      obtain ⟨t', h, -⟩ := h
      exact .inl ⟨t', h⟩
  case names =>
    refine h.plain (es := ((σ.disc.filter (fun p : Nat × Task => waits p.2)).map (fun p : Nat × Task => Ev.cancel p.1)).reverse ++
      ((σ.regs.filter (fun p : Nat × Reg => decide (p.2.st = RegSt.operational))).map (fun p : Nat × Reg => Ev.dereg p.1)).reverse) ?_ (by simp [shutNames])
      (fun _ _ h => h) (fun _ => rfl) (fun n t h => .inl (mem_keys.1 (shut_find _ _ h).1)) id
    intro e he
    simp only [List.mem_append, List.mem_reverse, List.mem_map] at he
    rcases he with ⟨p, -, rfl⟩ | ⟨p, -, rfl⟩ <;> exact ⟨fun _ _ => rfl, fun _ => rfl⟩
  case namesEnd hs hr hd =>
    refine h.plain (es := ((σ.disc.filter (fun p : Nat × Task => waits p.2)).map (fun p : Nat × Task => Ev.cancel p.1)).reverse ++
      ((σ.regs.filter (fun p : Nat × Reg => decide (p.2.st = RegSt.operational))).map (fun p : Nat × Reg => Ev.dereg p.1)).reverse) ?_ (by simp [shutNames])
      (fun _ _ h => by simp at h) (fun h' => ?_) (fun n t h => .inl (mem_keys.1 (shut_find _ _ h).1)) id
    · intro e he
      simp only [List.mem_append, List.mem_reverse, List.mem_map] at he
      rcases he with ⟨p, -, rfl⟩ | ⟨p, -, rfl⟩ <;> exact ⟨fun _ _ => rfl, fun _ => rfl⟩
    · have : σ.st = .initializing := h'
      rw [hs] at this; cases this
  case finI hs _ _ _ =>
    refine h.plain (es := [.answer true]) (fun e he => ?_) rfl (fun _ _ h => h) (fun _ => rfl) (fun n t h => .inl ⟨t, h⟩) (fun _ => hs)
    simp only [List.mem_singleton] at he; subst he; exact ⟨fun _ _ => rfl, fun _ => rfl⟩
  case regOk n r hq hr =>
    refine h.plain (es := [.regRes n true]) (fun e he => ?_) rfl (fun _ _ h => h) (fun _ => rfl) (fun n t h => .inl ⟨t, h⟩) id
    simp only [List.mem_singleton] at he; subst he; exact ⟨fun _ _ => rfl, fun _ => rfl⟩
  case regErr n r hq hr hi =>
    refine h.plain (es := [.answer false, .regRes n false]) (fun e he => ?_) rfl (fun _ _ h => h) (fun _ => rfl) (fun n t h => .inl ⟨t, h⟩) id
    simp only [List.mem_cons, List.not_mem_nil, or_false] at he; rcases he with rfl | rfl <;> exact ⟨fun _ _ => rfl, fun _ => rfl⟩
  case lostInit n t hq ht hs hi =>
    refine h.plain (es := [.answer false, .discRes n none]) (fun e he => ?_) rfl (fun _ _ h => h) (fun _ => rfl) (fun n t h => .inl ⟨t, erase_le _ _ _ _ _ h⟩) id
    simp only [List.mem_cons, List.not_mem_nil, or_false] at he; rcases he with rfl | rfl <;> exact ⟨fun _ _ => rfl, fun _ => rfl⟩
  case lostDown n t hq ht hs =>
    refine h.plain (es := [.discRes n none]) (fun e he => ?_) rfl (fun _ _ h => h) (fun _ => rfl) (fun n t h => .inl ⟨t, erase_le _ _ _ _ _ h⟩) id
    simp only [List.mem_singleton] at he; subst he; exact ⟨fun _ _ => rfl, fun _ => rfl⟩
  case linkUser a r hq hr hcb =>
    refine h.plain (es := [.linkRes a true]) (fun e he => ?_) rfl (fun _ _ h => h) (fun _ => rfl) (fun n t h => .inl ⟨t, h⟩) id
    simp only [List.mem_singleton] at he; subst he; exact ⟨fun _ _ => rfl, fun _ => rfl⟩
  case failReset hi =>
    refine h.plain (es := [.answer false]) (fun e he => ?_) rfl (fun _ _ h => h) (fun _ => rfl) (fun n t h => .inl ⟨t, h⟩) id
    simp only [List.mem_singleton] at he; subst he; exact ⟨fun _ _ => rfl, fun _ => rfl⟩
  case shut hs =>
    refine h.plain (es := [.shut]) (fun e he => ?_) rfl (fun _ _ h => h) (fun _ => rfl) (fun n t h => .inl ⟨t, h⟩) (fun h => by cases h)
    simp only [List.mem_singleton] at he; subst he; exact ⟨fun _ _ => rfl, fun _ => rfl⟩
  case finish hs _ =>
    exact h.plain (es := []) (fun e he => by simp at he) rfl (fun _ _ h => h) (fun _ => rfl) (fun n t h => .inl ⟨t, h⟩) (fun h => by cases h)
  case start hs =>
    exact h.plain (es := []) (fun e he => by simp at he) rfl (fun _ _ h => h) (fun _ => rfl) (fun n t h => .inl ⟨t, h⟩) (fun h => by cases h)
  all_goals exact h.plain (es := []) (fun e he => by simp at he) rfl (fun _ _ h => h) (fun _ => rfl) (fun n t h => .inl ⟨t, h⟩) id

end Verif.RegPlugin
