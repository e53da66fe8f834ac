import Verif.Children.Cost
import Verif.Tree.Reach
/-!
# A tree of supervisors comes to rest
-/

namespace Verif.Tree
open Verif Verif.Children

variable {s : Sys} {φ : Fl} {T T' : Tree}

/-- an execution from `T0`: the steps that have an effect, those of them user code has caused, and the children and spawners created:
by user code, between two messages or while the plugins are asked for the initialization, or by a restart -/
inductive TRun (s : Sys) (φ : Fl) (T0 : Tree) : Tree → Nat → Nat → Nat → Prop
  | refl : TRun s φ T0 T0 0 0 0
  | own {T : Tree} {n u m : Nat} (p : Path) (op : Op) (σ' : State) : TRun s φ T0 T n u m → Member s T p → Own s p (T p) op → Adm φ (T p) op →
      step (s.conf p) (T p) op = .ok σ' →
      TRun s φ T0 (change T p σ') (n + if idle (T p) op then 0 else 1) (u + if user op then 1 else 0) (m + (σ'.nx - (T p).nx))
  | deliver {T : Tree} {n u k : Nat} (p : Path) (a : Nat) (m : Dn) (t : List Dn) (o : Ora) (σ' : State) : TRun s φ T0 T n u k → Member s T (a :: p) →
      (T p).to a = m :: t → (T (a :: p)).st ≠ .shutDown → Adm φ (T (a :: p)) (opOf o m) → step (s.conf (a :: p)) (T (a :: p)) (opOf o m) = .ok σ' →
      TRun s φ T0 (change (put T p (taken a (T p))) (a :: p) σ') (n + 1) u (k + (σ'.nx - (T (a :: p)).nx))
  | lost {T : Tree} {n u k : Nat} (p : Path) (a : Nat) (m : Dn) (t : List Dn) : TRun s φ T0 T n u k → Member s T (a :: p) → (T p).to a = m :: t →
      (T (a :: p)).st = .shuttingDown ∨ (T (a :: p)).st = .shutDown → TRun s φ T0 (put T p (taken a (T p))) (n + 1) u k

theorem TRun.reach {T0 : Tree} {n u m : Nat} (h0 : TReach s φ T0) (h : TRun s φ T0 T n u m) : TReach s φ T := by
  induction h with
  | refl => exact h0
  | own p op σ' _ hm ho ha he ih => exact .own p op σ' ih hm ho ha he
  | deliver p a m t o σ' _ hm hq hs ha he ih => exact .deliver p a m t o σ' ih hm hq hs ha he
  | lost p a m t _ hm hq hs ih => exact .lost p a m t ih hm hq hs

/-! ## sums over the members -/

def sumL (f : Path → Nat) : List Path → Nat
  | [] => 0
  | x :: l => f x + sumL f l

theorem sumL_append (f : Path → Nat) : ∀ l k, sumL f (l ++ k) = sumL f l + sumL f k := by
  intro l k
  induction l with
  | nil => simp [sumL]
  | cons x l ih => simp only [List.cons_append, sumL, ih]; omega

theorem sumL_congr {f g : Path → Nat} : ∀ {l : List Path}, (∀ x ∈ l, f x = g x) → sumL f l = sumL g l := by
  intro l
  induction l with
  | nil => intro _; rfl
  | cons x l ih =>
    intro h
    simp only [sumL, h x (by simp), ih (fun y hy => h y (by simp [hy]))]

theorem sumL_at {f g : Path → Nat} {p : Path} : ∀ {l : List Path}, l.Nodup → p ∈ l → (∀ x, x ≠ p → g x = f x) → sumL g l + f p = sumL f l + g p := by
  intro l
  induction l with
  | nil => intro _ h; simp at h
  | cons x l ih =>
    intro hd hp h
    rw [List.nodup_cons] at hd
    simp only [sumL]
    by_cases hx : x = p
    · subst hx
      rw [sumL_congr (f := g) (g := f) (l := l) (fun y hy => h y (fun e => hd.1 (e ▸ hy)))]
      omega
    · have := ih hd.2 (by simpa [Ne.symm hx] using hp) h
      rw [h x hx]
      omega

theorem sumL_le {f : Path → Nat} {k : Nat} : ∀ {l : List Path}, (∀ x ∈ l, f x ≤ k) → sumL f l ≤ k * l.length := by
  intro l
  induction l with
  | nil => intro _; simp [sumL]
  | cons x l ih =>
    intro h
    have h1 := h x (by simp)
    have h2 := ih (fun y hy => h y (by simp [hy]))
    simp only [sumL, List.length_cons, Nat.mul_add]
    omega

/-! ## the members -/

/-- the list of all members -/
structure Cover (s : Sys) (T : Tree) (L : List Path) : Prop where
  nodup : L.Nodup
  mem : ∀ p, p ∈ L ↔ Member s T p

/-- the children of `p` that are not supervisors of the tree -/
def lf (s : Sys) (p : Path) (a : Nat) : Bool := !s.sup (a :: p)

/-- what there is to be done in the tree -/
def tot (s : Sys) (T : Tree) (L : List Path) : Nat := sumL (fun p => todo (lf s p) (T p)) L

theorem member_iff {p : Path} {n : Nat} (hm : Member s T p) (hB : ∀ x a, ((T' x).kid a).born = true ↔ ((T x).kid a).born = true ∨ (x = p ∧ n ≤ a ∧ ((T' p).kid a).born = true))
    (hn : ∀ a, n ≤ a → ((T p).kid a).born = false) (hi : ∀ a b, n ≤ a → ((T (a :: p)).kid b).born = false) : ∀ x,
    Member s T' x ↔ Member s T x ∨ ∃ a, n ≤ a ∧ x = a :: p ∧ s.sup x = true ∧ ((T' p).kid a).born = true := by
  have hup : ∀ x, Member s T x → Member s T' x := by
    intro x
    induction x with
    | nil => intro _; trivial
    | cons b y ih => intro h; exact ⟨ih h.1, h.2.1, (hB y b).2 (.inl h.2.2)⟩
  intro x
  induction x with
  | nil => exact ⟨fun _ => .inl trivial, fun _ => trivial⟩
  | cons b y ih =>
    constructor
    · intro h
      rcases (hB y b).1 h.2.2 with h1 | ⟨h1, h2, h3⟩
      · rcases ih.1 h.1 with h4 | ⟨a, h4, h5, h6, h7⟩
        · exact .inl ⟨h4, h.2.1, h1⟩
        · subst h5
          rw [hi a b h4] at h1
          simp at h1
      · subst h1
        exact .inr ⟨b, h2, rfl, h.2.1, h3⟩
    · rintro (h | ⟨a, h1, h2, h3, h4⟩)
      · exact hup _ h
      · injection h2 with h2 h5
        subst h2; subst h5
        exact ⟨hup _ hm, h3, h4⟩

/-- the new members -/
def news (s : Sys) (p : Path) (σ' : State) (n k : Nat) : List Path :=
  ((List.range' n k).filter (fun a => s.sup (a :: p) && (σ'.kid a).born)).map (fun a => a :: p)

theorem cover_news {p : Path} {L : List Path} {n : Nat} (hc : Cover s T L) (hm : Member s T p)
    (hB : ∀ x a, ((T' x).kid a).born = true ↔ ((T x).kid a).born = true ∨ (x = p ∧ n ≤ a ∧ ((T' p).kid a).born = true))
    (hn : ∀ a, n ≤ a → ((T p).kid a).born = false) (hi : ∀ a b, n ≤ a → ((T (a :: p)).kid b).born = false)
    (hk : ∀ a, ((T' p).kid a).born = true → a < (T' p).nx) : Cover s T' (L ++ news s p (T' p) n ((T' p).nx - n)) := by
  have hmem := member_iff hm hB hn hi
  have e : ∀ x, x ∈ news s p (T' p) n ((T' p).nx - n) ↔ ∃ a, n ≤ a ∧ x = a :: p ∧ s.sup x = true ∧ ((T' p).kid a).born = true := by
    intro x
    simp only [news, List.mem_map, List.mem_filter, List.mem_range'_1, Bool.and_eq_true]
    constructor
    · rintro ⟨a, ⟨⟨h1, h2⟩, h3, h4⟩, rfl⟩
      exact ⟨a, h1, rfl, h3, h4⟩
    · rintro ⟨a, h1, rfl, h3, h4⟩
      have := hk a h4
      exact ⟨a, ⟨⟨h1, by omega⟩, h3, h4⟩, rfl⟩
  constructor
  · rw [List.nodup_append]
    refine ⟨hc.nodup, ?_, ?_⟩
    · unfold news
      refine List.Pairwise.map _ (fun a b h => ?_) (List.Pairwise.filter _ List.nodup_range')
      intro h2; injection h2 with h2; exact h h2
    · intro x hx y hy hxy
      subst hxy
      obtain ⟨a, h1, rfl, _, _⟩ := (e x).1 hy
      have := ((hc.mem _).1 hx).2.2
      rw [hn a h1] at this
      simp at this
  · intro x
    rw [List.mem_append, e, hmem, hc.mem]

theorem news_len (p : Path) (σ' : State) (n k : Nat) : (news s p σ' n k).length ≤ k := by
  unfold news
  rw [List.length_map]
  exact Nat.le_trans (List.length_filter_le _ _) (by simp)

/-! ## reports -/

theorem os_append (x y : List KM) : os (x ++ y) = os x + os y := by simp [os]

theorem os_report {c : Conf} {σ σ' : State} (hc : c.root = false) (h1 : σ.wants ≤ σ'.wants) (h2 : σ.initOks ≤ σ'.initOks) (h3 : σ.initFails ≤ σ'.initFails)
    (h4 : σ.st = .shutDown → σ'.st = .shutDown) : os (report σ σ') + ws c σ ≤ ws c σ' := by
  have e1 : os (List.replicate (σ'.wants - σ.wants) .trigger) = 2 * (σ'.wants - σ.wants) := by
    simp [os, List.map_replicate, wK]; omega
  have e2 : os (if σ'.initFails = σ.initFails then [] else [.initRes false]) ≤ 5 * (σ'.initFails - σ.initFails) := by
    split
    · simp [os]
    · simp [os, wK]; omega
  have e3 : os (if σ'.initOks = σ.initOks then [] else [.initRes true]) ≤ 5 * (σ'.initOks - σ.initOks) := by
    split
    · simp [os]
    · simp [os, wK]; omega
  have e4 : os (if σ'.st = .shutDown ∧ σ.st ≠ .shutDown then [.shutRes] else []) + sd σ.st ≤ sd σ'.st := by
    split
    · rename_i h
      rw [h.1]
      generalize σ.st = x at *
      cases x <;> simp_all [os, wK, sd]
    · rename_i h
      generalize σ.st = x at *
      generalize σ'.st = y at *
      cases x <;> cases y <;> simp_all [os, wK, sd]
  unfold report
  rw [os_append, os_append, os_append]
  simp only [ws, hc, Bool.not_false, bw_true]
  omega

theorem todo_seen {l : Nat → Bool} {a : Nat} {σ σ' τ : State} (hl : l a = false) : todo l (seen a σ σ' τ) ≤ todo l τ + os (report σ σ') := by
  have := ks_at (lf := l) (σ := τ) (σ' := seen a σ σ' τ) rfl a (os (report σ σ')) ?_ (fun b hb => ?_)
  · have e1 : qs (seen a σ σ' τ).q = qs τ.q := rfl
    have e2 : ss (seen a σ σ' τ) = ss τ := rfl
    simp only [todo, e1, e2]
    omega
  · simp only [pk, seen, upd, if_true, hl, bw_false, os_append]; omega
  · simp [pk, seen, upd, hb]

theorem todo_taken {l : Nat → Bool} {a : Nat} {τ : State} {m : Dn} {t : List Dn} (hf : Fresh τ) (h : τ.to a = m :: t) : todo l (taken a τ) + wD m ≤ todo l τ := by
  have := ks_dec (lf := l) (σ := τ) (σ' := taken a τ) rfl (wD m) (fresh_to hf h) ?_ (fun b hb => ?_)
  · have e1 : qs (taken a τ).q = qs τ.q := rfl
    have e2 : ss (taken a τ) = ss τ := rfl
    simp only [todo, e1, e2]
    omega
  · simp only [pk, taken, upd, if_true, h, List.tail_cons, ds_cons]; omega
  · simp [pk, taken, upd, hb]

/-! ## steps -/

theorem todo_init {l : Nat → Bool} {c : Conf} (hc : c.root = false) : todo l (.init c) = 13 := by
  simp [todo, State.init, hc, ks, sumTo, ss, se, qs]

theorem init_born (c : Conf) (b : Nat) : ((State.init c).kid b).born = false := rfl

/-- the new members have hardly anything to do -/
theorem sum_news {p : Path} {n k : Nat} {σ' : State} (hi : ∀ a, n ≤ a → T' (a :: p) = .init (s.conf (a :: p))) :
    sumL (fun x => todo (lf s x) (T' x)) (news s p σ' n k) ≤ 13 * k := by
  have h1 := sumL_le (f := fun x => todo (lf s x) (T' x)) (k := 13) (l := news s p σ' n k) (fun x hx => by
    simp only [news, List.mem_map, List.mem_filter, List.mem_range'_1] at hx
    obtain ⟨a, ⟨⟨h1, _⟩, _⟩, rfl⟩ := hx
    show todo (lf s (a :: p)) (T' (a :: p)) ≤ 13
    rw [hi a h1, todo_init (conf_sub s a p)]
    exact Nat.le_refl _)
  have h2 := news_len (s := s) p σ' n k
  omega

theorem fresh_no {σ : State} (hf : Fresh σ) {a : Nat} (h : σ.nx ≤ a) : (σ.kid a).born = false := by
  have := (hf a h).k
  simp only [view] at this
  rw [this]; rfl

theorem tot_root {L : List Path} {k : Int} {σ' : State} (hg : G s φ T) (hc : Cover s T L) (hco : Co (s.conf []) (lf s []) k (T []) σ') (hf' : Fresh σ') :
    ∃ L', Cover s (put T [] σ') L' ∧ (tot s (put T [] σ') L' : Int) ≤ tot s T L + k + 43 * (σ'.nx - (T []).nx : Nat) := by
  have hf := (hg.reach []).base.1
  have hi : ∀ a, (T []).nx ≤ a → T [a] = .init (s.conf [a]) := fun a ha => hg.unborn [] a (fresh_no hf ha)
  have e0 : put T [] σ' [] = σ' := put_self _ _ _
  refine ⟨L ++ news s [] (put T [] σ' []) (T []).nx ((put T [] σ' []).nx - (T []).nx), cover_news (p := []) hc trivial (fun x a => ?_) (fun a ha => fresh_no hf ha) (fun a b ha => ?_) (fun a ha => ?_), ?_⟩
  · by_cases hx : x = []
    · subst hx
      rw [e0]
      by_cases ha : a < (T []).nx
      · rw [hco.born a ha]; constructor
        · exact .inl
        · rintro (h | h)
          · exact h
          · omega
      · constructor
        · intro h; exact .inr ⟨rfl, by omega, h⟩
        · rintro (h | h)
          · rw [fresh_no hf (by omega)] at h; simp at h
          · exact h.2.2
    · rw [put_ne _ _ hx]
      simp [hx]
  · rw [hi a ha]; rfl
  · rw [e0] at ha ⊢; exact fresh_born hf' ha
  · rw [e0]
    unfold tot
    rw [sumL_append]
    have h1 := sumL_at (f := fun x => todo (lf s x) (T x)) (g := fun x => todo (lf s x) (put T [] σ' x)) (p := []) hc.nodup ((hc.mem []).2 trivial)
      (fun x hx => by simp only [put_ne _ _ hx])
    have h2 := sum_news (s := s) (T' := put T [] σ') (p := []) (n := (T []).nx) (k := σ'.nx - (T []).nx) (σ' := σ') (fun a ha => by rw [put_ne _ _ (by simp)]; exact hi a ha)
    have h3 := hco.pot
    have h4 := hco.nx
    have h5 : ∀ x, ws (s.conf []) x = 0 := fun x => rfl
    simp only [h5] at h3
    simp only [put_self] at h1
    omega

/-- what a step reports only grows -/
structure Mono (σ σ' : State) : Prop where
  wants : σ.wants ≤ σ'.wants
  oks : σ.initOks ≤ σ'.initOks
  fails : σ.initFails ≤ σ'.initFails
  st : σ.st = .shutDown → σ'.st = .shutDown

theorem tot_sub {L : List Path} {k : Int} {b : Nat} {q : Path} {τ σ' : State} (hg : G s φ T) (hc : Cover s T L) (hm : Member s T (b :: q))
    (hco : Co (s.conf (b :: q)) (lf s (b :: q)) k (T (b :: q)) σ') (hf' : Fresh σ') (hmo : Mono (T (b :: q)) σ') {j : Int}
    (ht : (todo (lf s q) τ : Int) ≤ todo (lf s q) (T q) + j) (hk : τ.kid = (T q).kid) :
    ∃ L', Cover s (put (put T q (seen b (T (b :: q)) σ' τ)) (b :: q) σ') L' ∧
      (tot s (put (put T q (seen b (T (b :: q)) σ' τ)) (b :: q) σ') L' : Int) ≤ tot s T L + k + j + 43 * (σ'.nx - (T (b :: q)).nx : Nat) := by
  have hf := (hg.reach (b :: q)).base.1
  have hqb : q ≠ b :: q := cons_ne b q
  have hi : ∀ a, (T (b :: q)).nx ≤ a → T (a :: b :: q) = .init (s.conf (a :: b :: q)) := fun a ha => hg.unborn _ a (fresh_no hf ha)
  generalize hT2 : put (put T q (seen b (T (b :: q)) σ' τ)) (b :: q) σ' = T2
  have e0 : T2 (b :: q) = σ' := by rw [← hT2]; exact put_self _ _ _
  have eq : T2 q = seen b (T (b :: q)) σ' τ := by rw [← hT2, put_ne _ _ hqb, put_self]
  have ex : ∀ x, x ≠ b :: q → x ≠ q → T2 x = T x := fun x h1 h2 => by rw [← hT2, put_ne _ _ h1, put_ne _ _ h2]
  have long : ∀ a, a :: b :: q ≠ b :: q ∧ a :: b :: q ≠ q := fun a => ⟨fun h => by simpa using congrArg List.length h, fun h => by
    have := congrArg List.length h
    simp at this
    omega⟩
  have hi2 : ∀ a, (T (b :: q)).nx ≤ a → T2 (a :: b :: q) = .init (s.conf (a :: b :: q)) := fun a ha => by
    rw [ex _ (long a).1 (long a).2]; exact hi a ha
  refine ⟨L ++ news s (b :: q) (T2 (b :: q)) (T (b :: q)).nx ((T2 (b :: q)).nx - (T (b :: q)).nx),
    cover_news (p := b :: q) hc hm (fun x a => ?_) (fun a ha => fresh_no hf ha) (fun a b ha => ?_) (fun a ha => ?_), ?_⟩
  · by_cases hx : x = b :: q
    · subst hx
      rw [e0]
      by_cases ha : a < (T (b :: q)).nx
      · rw [hco.born a ha]; constructor
        · exact .inl
        · rintro (h | h)
          · exact h
          · omega
      · constructor
        · intro h; exact .inr ⟨rfl, by omega, h⟩
        · rintro (h | h)
          · rw [fresh_no hf (by omega)] at h; simp at h
          · exact h.2.2
    · have : ((T2 x).kid a).born = ((T x).kid a).born := by
        by_cases hq : x = q
        · subst hq
          rw [eq]
          simp only [seen, upd]
          split
          · rename_i hab; subst hab; exact hm.2.2.symm
          · rw [hk]
        · rw [ex x hx hq]
      rw [this]
      simp [hx]
  · rw [hi a ha]; rfl
  · rw [e0] at ha ⊢; exact fresh_born hf' ha
  · rw [e0]
    unfold tot
    rw [sumL_append]
    have hq1 : q ∈ L := (hc.mem q).2 hm.1
    have hp1 : b :: q ∈ L := (hc.mem _).2 hm
    have h1 := sumL_at (f := fun x => todo (lf s x) (T x)) (g := fun x => todo (lf s x) (put T q (seen b (T (b :: q)) σ' τ) x)) (p := q) hc.nodup hq1
      (fun x hx => by simp only [put_ne _ _ hx])
    have h1' := sumL_at (f := fun x => todo (lf s x) (put T q (seen b (T (b :: q)) σ' τ) x)) (g := fun x => todo (lf s x) (T2 x)) (p := b :: q) hc.nodup hp1
      (fun x hx => by simp only [← hT2, put_ne _ _ hx])
    have h2 := sum_news (s := s) (T' := T2) (p := b :: q) (n := (T (b :: q)).nx) (k := σ'.nx - (T (b :: q)).nx) (σ' := σ') hi2
    have h3 := hco.pot
    have h4 := hco.nx
    have hl : lf s q b = false := by simp [lf, hm.2.1]
    have h5 := todo_seen (a := b) (σ := T (b :: q)) (σ' := σ') (τ := τ) hl
    have h6 := os_report (conf_sub s b q) hmo.wants hmo.oks hmo.fails hmo.st
    simp only [put_self, put_ne (x := b :: q) T _ (Ne.symm hqb), e0] at h1 h1'
    omega

theorem Mono.of {σ σ' : State} (h : Delta (sview σ) (sview σ')) : Mono σ σ' := by
  obtain ⟨h1, h2, h3, h4⟩ := h
  simp only [sview] at h1 h2 h3 h4
  refine ⟨h1, ?_, ?_, ?_⟩
  · rcases h4 with h | h | h <;> omega
  · rcases h4 with h | h | h <;> omega
  · intro hs
    rcases h3 with h | h | h
    · rw [h]; exact hs
    · rw [hs] at h; simp at h
    · exact h.2

theorem leaf_own {p : Path} {σ : State} {op : Op} (h : Own s p σ op) : Leaf (lf s p) σ op := by
  cases op <;> simp_all [Own, Leaf, lf]

end Verif.Tree
