import Verif.Across.Spec
/-!
# The messages of one actor on their way to a locality are in order
-/

namespace Verif.Across

/-- the number of the message, if it is from `b` and for the locality `L` -/
def tagAt (c : Cfg) (b L : Nat) (m : Msg) : Option Nat := if c.loc m.to = L ∧ m.src = some b then some m.seq else none

def tags (c : Cfg) (b L : Nat) (l : List Msg) : List Nat := l.filterMap (tagAt c b L)

/-- newest first -/
def seen (c : Cfg) (b L : Nat) (l : List Ev) : List Nat :=
  l.filterMap fun e => match e with | .got m => tagAt c b L m | _ => none

def line (c : Cfg) (σ : State) (b L : Nat) : List Nat :=
  (seen c b L σ.log).reverse ++ tags c b L (σ.queue L) ++ tags c b L (σ.inbound L) ++
    (if c.loc b = L then [] else tags c b L (σ.queue (c.loc b)))

/-- for the locality `K` -/
structure OInv (c : Cfg) (K : Nat) (σ : State) : Prop where
  sorted : ∀ b, (line c σ b K).Pairwise (· < ·)
  below : ∀ b, ∀ i ∈ line c σ b K, i < σ.sent b
  inb : ∀ L m, m ∈ σ.inbound L → c.loc m.to = L ∧ ∀ b, L = K → m.src = some b → c.loc b ≠ L
  que : ∀ L m, m ∈ σ.queue L → c.loc m.to = K → ∀ b, m.src = some b → c.loc b = L ∨ L = K
  own : ∀ s n a o, AMap.find (σ.pend s) n = some (a, o) → c.loc o = K → c.loc s = K

theorem OInv.init (c : Cfg) (K : Nat) : OInv c K .init :=
  ⟨(by intro b; simp [line, State.init, seen, tags]), (by intro b; simp [line, State.init, seen, tags]),
   (by intro L m h; cases h), (by intro L m h; cases h), (by intro s n a o h; cases h)⟩

/-- nothing new is on the way -/
theorem OInv.sub {c : Cfg} {K : Nat} {σ σ' : State} (i : OInv c K σ) (hl : ∀ b, (line c σ' b K).Sublist (line c σ b K)) (hs : ∀ b, σ.sent b ≤ σ'.sent b)
    (h3 : ∀ L m, m ∈ σ'.inbound L → c.loc m.to = L ∧ ∀ b, L = K → m.src = some b → c.loc b ≠ L)
    (h4 : ∀ L m, m ∈ σ'.queue L → c.loc m.to = K → ∀ b, m.src = some b → c.loc b = L ∨ L = K)
    (h5 : ∀ s n a o, AMap.find (σ'.pend s) n = some (a, o) → c.loc o = K → c.loc s = K) : OInv c K σ' :=
  ⟨fun b => (i.sorted b).sublist (hl b), fun b j hj => Nat.lt_of_lt_of_le (i.below b j ((hl b).subset hj)) (hs b), h3, h4, h5⟩

theorem tags_append (c : Cfg) (b L : Nat) (l r : List Msg) : tags c b L (l ++ r) = tags c b L l ++ tags c b L r := by simp [tags]

theorem tags_cons (c : Cfg) (b L : Nat) (m : Msg) (r : List Msg) : tags c b L (m :: r) = (tagAt c b L m).toList ++ tags c b L r := by
  simp only [tags, List.filterMap_cons]; cases tagAt c b L m <;> rfl

theorem tags_nil (c : Cfg) (b L : Nat) : tags c b L [] = [] := rfl

theorem tags_nil_of (c : Cfg) (b L : Nat) (l : List Msg) (h : ∀ m ∈ l, tagAt c b L m = none) : tags c b L l = [] := by
  simpa [tags, List.filterMap_eq_nil_iff] using h

theorem push_oinv {c : Cfg} {K : Nat} {σ : State} (i : OInv c K σ) (a : Nat) (m : Body) : OInv c K (push c a m σ) := by
  have key : ∀ b, line c (push c a m σ) b K = line c σ b K ++ (tagAt c b K ⟨m, some a, σ.sent a⟩).toList := by
    intro b
    by_cases hb : b = a
    · subst hb
      by_cases hL : c.loc b = K
      · subst hL
        have hin : tags c b (c.loc b) (σ.inbound (c.loc b)) = [] := by
          refine tags_nil_of c b _ _ fun m' hm => ?_
          simp only [tagAt]
          split
          · rename_i hc; exact absurd rfl ((i.inb _ m' hm).2 b rfl hc.2)
          · rfl
        simp [line, push, upd, tags_append, hin, tags_cons, tags_nil]
      · have : ¬ K = c.loc b := fun h => hL h.symm
        simp [line, push, upd, tags_append, hL, this, tags_cons, tags_nil]
    · have ht : tagAt c b K ⟨m, some a, σ.sent a⟩ = none := by
        simp only [tagAt]; split
        · rename_i hc; exact absurd (Option.some.inj hc.2).symm hb
        · rfl
      have hq : ∀ J, tags c b K ((push c a m σ).queue J) = tags c b K (σ.queue J) := by
        intro J
        simp only [push, upd]
        split
        · rename_i hJ; subst hJ; simp [tags_append, tags_cons, ht, tags]
        · rfl
      simp only [line, hq, ht]
      simp [push]
  refine ⟨?_, ?_, ?_, ?_, ?_⟩
  · intro b
    rw [key]
    refine List.pairwise_append.2 ⟨i.sorted b, ?_, ?_⟩
    · cases tagAt c b K ⟨m, some a, σ.sent a⟩ <;> simp
    · intro x hx y hy
      have := i.below b x hx
      simp only [tagAt] at hy
      split at hy
      · rename_i hc
        have := Option.some.inj hc.2
        subst this
        simp at hy
        omega
      · simp at hy
  · intro b j hj
    rw [key, List.mem_append] at hj
    have hs : σ.sent b ≤ (push c a m σ).sent b := by simp only [push, upd]; split <;> simp_all
    rcases hj with hj | hj
    · exact Nat.lt_of_lt_of_le (i.below b j hj) hs
    · simp only [tagAt] at hj
      split at hj
      · rename_i hc
        have := Option.some.inj hc.2
        subst this
        simp at hj
        simp [push, upd, hj]
      · simp at hj
  · exact i.inb
  · intro L m' hm hk b hb
    simp only [push, upd] at hm
    split at hm
    · rename_i hL
      rw [List.mem_append] at hm
      rcases hm with hm | hm
      · exact i.que L m' (hL ▸ hm) hk b hb
      · simp at hm; subst hm; simp at hb; subst hb; exact .inl hL.symm
    · exact i.que L m' hm hk b hb
  · exact i.own

/-- nothing but the table of requests and the log of other events changes -/
theorem aside_oinv {c : Cfg} {K : Nat} {σ σ' : State} (i : OInv c K σ) (hq : σ'.queue = σ.queue) (hi : σ'.inbound = σ.inbound) (hs : σ'.sent = σ.sent)
    (hl : ∀ b, seen c b K σ'.log = seen c b K σ.log)
    (h5 : ∀ s n a o, AMap.find (σ'.pend s) n = some (a, o) → c.loc o = K → c.loc s = K) : OInv c K σ' :=
  i.sub (fun b => by simp [line, hq, hi, hl]) (fun b => by rw [hs]; exact Nat.le_refl _) (by rw [hi]; exact i.inb) (by rw [hq]; exact i.que) h5

theorem find_cons {K V : Type} [DecidableEq K] (m : AMap K V) (k j : K) (v : V) :
    AMap.find ((k, v) :: m) j = if k = j then some v else AMap.find m j := rfl

theorem uplift_append (q : List Msg) (m : Msg) : uplift (q ++ [m]) = m :: q := by simp [uplift]

theorem turn_oinv {c : Cfg} {K : Nat} {σ : State} (i : OInv c K σ) (L : Nat) : OInv c K (turn c L σ) := by
  simp only [turn]
  split
  · exact i
  · rename_i m rest hq
    have hmem : m ∈ σ.queue L := by rw [hq]; exact List.mem_cons_self
    have hque : ∀ J m', m' ∈ (upd σ.queue L rest) J → c.loc m'.to = K → ∀ b, m'.src = some b → c.loc b = J ∨ J = K := by
      intro J m' hm
      simp only [upd] at hm
      split at hm
      · rename_i hJ; subst hJ; exact i.que _ m' (by rw [hq]; exact List.mem_cons_of_mem _ hm)
      · exact i.que J m' hm
    by_cases hd : c.loc m.to = L
    · rw [if_pos hd]
      have hqsub : ∀ b J, (tags c b K (upd σ.queue L rest J)).Sublist (tags c b K (σ.queue J)) := by
        intro b J
        simp only [upd]
        split
        · rename_i hJ; subst hJ; rw [hq, tags_cons]; exact List.sublist_append_right _ _
        · exact List.Sublist.refl _
      -- without the message
      have hdrop : OInv c K { σ with queue := upd σ.queue L rest } := by
        refine i.sub ?_ (fun _ => Nat.le_refl _) i.inb hque i.own
        intro b
        simp only [line]
        refine List.Sublist.append (List.Sublist.append (List.Sublist.append (List.Sublist.refl _) (hqsub b K)) (List.Sublist.refl _)) ?_
        split
        · exact List.Sublist.refl _
        · exact hqsub b _
      -- with the message in the log
      have hgot : OInv c K { σ with queue := upd σ.queue L rest, log := .got m :: σ.log } := by
        refine i.sub ?_ (fun _ => Nat.le_refl _) i.inb hque i.own
        intro b
        by_cases hK : K = L
        · subst hK
          simp only [line, seen, List.filterMap_cons, upd]
          rw [hq, tags_cons]
          cases ht : tagAt c b K m with
          | none =>
            simp only [if_true, Option.toList, List.nil_append]
            split
            · exact List.Sublist.refl _
            · simp
          | some j =>
            simp only [if_true, Option.toList, List.reverse_cons, List.append_assoc]
            split
            · exact List.Sublist.refl _
            · simp
        · have ht : tagAt c b K m = none := by
            simp only [tagAt]; split
            · rename_i hc; exact absurd (hc.1.symm.trans hd) hK
            · rfl
          have hqs : ∀ J, tags c b K (upd σ.queue L rest J) = tags c b K (σ.queue J) := by
            intro J
            simp only [upd]
            split
            · rename_i hJ; subst hJ; rw [hq, tags_cons, ht]; rfl
            · rfl
          simp only [line, hqs, seen, List.filterMap_cons, ht]
          exact List.Sublist.refl _
      split
      · rename_i s n x hb
        simp only [onReply]
        split
        · exact hdrop
        · rename_i a o hf
          have hto : c.loc s = L := by simpa [Msg.to, hb] using hd
          have ho : c.loc o = K → L = K := fun h => hto.symm.trans (i.own s n a o hf h)
          have hup : uplift (upd σ.queue L rest L ++ [⟨.response s n o (some x), m.src, m.seq⟩]) = ⟨.response s n o (some x), m.src, m.seq⟩ :: rest := by
            simp [upd, uplift_append]
          simp only [hup]
          refine i.sub ?_ (fun _ => Nat.le_refl _) i.inb ?_ ?_
          · intro b
            have htag : (tagAt c b K ⟨.response s n o (some x), m.src, m.seq⟩).toList.Sublist (tagAt c b K m).toList := by
              simp only [tagAt, Msg.to, hb]
              by_cases h : c.loc o = K
              · have := ho h
                simp [h, hto, this]
              · simp [h]
            have hqs : ∀ J, (tags c b K (upd (upd σ.queue L rest) L (⟨.response s n o (some x), m.src, m.seq⟩ :: rest) J)).Sublist
                (tags c b K (σ.queue J)) := by
              intro J
              by_cases hJ : J = L
              · subst hJ; simp only [upd, if_true]; rw [hq, tags_cons, tags_cons]; exact List.Sublist.append htag (List.Sublist.refl _)
              · simp [upd, hJ]
            simp only [line, seen, List.filterMap_cons]
            refine List.Sublist.append (List.Sublist.append (List.Sublist.append (List.Sublist.refl _) (hqs K)) (List.Sublist.refl _)) ?_
            split
            · exact List.Sublist.refl _
            · exact hqs _
          · intro J m' hm hk b hb'
            by_cases hJ : J = L
            · subst hJ
              simp only [upd, if_true, List.mem_cons] at hm
              rcases hm with hm | hm
              · subst hm; exact .inr (ho hk)
              · exact i.que J m' (by rw [hq]; exact List.mem_cons_of_mem _ hm) hk b hb'
            · simp only [upd, hJ, if_false] at hm
              exact i.que J m' hm hk b hb'
          · intro s' n' a' o' h'
            simp only [upd] at h'
            split at h'
            · rename_i hs; subst hs
              rw [AMap.find_erase] at h'
              split at h'
              · cases h'
              · exact i.own _ _ _ _ h'
            · exact i.own _ _ _ _ h'
      · exact hgot
    · rw [if_neg hd]
      refine i.sub ?_ (fun _ => Nat.le_refl _) ?_ hque i.own
      · intro b
        cases ht : tagAt c b K m with
        | none =>
          have hqs : ∀ J, tags c b K (upd σ.queue L rest J) = tags c b K (σ.queue J) := by
            intro J
            simp only [upd]
            split
            · rename_i hJ; subst hJ; rw [hq, tags_cons, ht]; rfl
            · rfl
          have his : ∀ J, tags c b K (upd σ.inbound (c.loc m.to) (σ.inbound (c.loc m.to) ++ [m]) J) = tags c b K (σ.inbound J) := by
            intro J
            simp only [upd]
            split
            · rename_i hJ; subst hJ; rw [tags_append, tags_cons, ht]; simp [tags]
            · rfl
          simp only [line, hqs, his]
          exact List.Sublist.refl _
        | some j =>
          have hc : c.loc m.to = K ∧ m.src = some b ∧ m.seq = j := by
            simp only [tagAt] at ht
            split at ht
            · rename_i h; exact ⟨h.1, h.2, Option.some.inj ht⟩
            · cases ht
          have hKL : ¬ K = L := fun h => hd (hc.1.trans h)
          have hLK : ¬ L = K := fun h => hKL h.symm
          have hb : c.loc b = L := by
            rcases i.que L m hmem hc.1 b hc.2.1 with h | h
            · exact h
            · exact absurd h hLK
          simp only [line, upd, hc.1, hb, hKL, hLK, if_true, if_false, tags_append, hq, tags_cons, ht]
          simp [tags]
      · intro J m' hm
        simp only [upd] at hm
        split at hm
        · rename_i hJ
          rw [List.mem_append] at hm
          rcases hm with hm | hm
          · exact i.inb J m' (hJ ▸ hm)
          · simp at hm; subst hm
            refine ⟨hJ.symm, fun b hjk hb hbj => ?_⟩
            rcases i.que L m' hmem (hJ.symm.trans hjk) b hb with h | h
            · exact hd (hJ.symm.trans (hbj.symm.trans h))
            · exact hd (hJ.symm.trans (hjk.trans h.symm))
        · exact i.inb J m' hm

theorem take_oinv {c : Cfg} {K : Nat} {σ : State} (i : OInv c K σ) (L : Nat) : OInv c K (take L σ) := by
  refine i.sub ?_ (fun _ => Nat.le_refl _) ?_ ?_ i.own
  · intro b
    by_cases hK : K = L
    · subst hK
      simp only [line, take, upd, if_true, tags_append]
      split
      · simp [tags]
      · simp [tags]
    · have hin : tags c b K (σ.inbound L) = [] := by
        refine tags_nil_of c b _ _ fun m hm => ?_
        simp only [tagAt]; split
        · rename_i hc; exact absurd (hc.1.symm.trans (i.inb L m hm).1) hK
        · rfl
      have hqs : ∀ J, tags c b K ((take L σ).queue J) = tags c b K (σ.queue J) := by
        intro J
        simp only [take, upd]
        split
        · rename_i hJ; subst hJ; rw [tags_append, hin, List.append_nil]
        · rfl
      have hi : (take L σ).inbound K = σ.inbound K := by simp [take, upd, hK]
      simp only [line, hqs, hi]
      exact List.Sublist.refl _
  · intro J m hm
    simp only [take, upd] at hm
    split at hm
    · cases hm
    · exact i.inb J m hm
  · intro J m hm hk b hb
    simp only [take, upd] at hm
    split at hm
    · rename_i hJ; subst hJ
      rw [List.mem_append] at hm
      rcases hm with hm | hm
      · exact i.que J m hm hk b hb
      · exact .inr ((i.inb J m hm).1.symm.trans hk)
    · exact i.que J m hm hk b hb

theorem expire_oinv {c : Cfg} {K : Nat} {σ : State} (i : OInv c K σ) (s n : Nat) : OInv c K (expire c s n σ) := by
  simp only [expire]
  split
  · exact i
  · rename_i a o hf
    refine i.sub ?_ (fun _ => Nat.le_refl _) i.inb ?_ ?_
    · intro b
      have hqs : ∀ J, tags c b K (upd σ.queue (c.loc s) (σ.queue (c.loc s) ++ [⟨.response s n o none, none, 0⟩]) J) = tags c b K (σ.queue J) := by
        intro J
        simp only [upd]
        split
        · rename_i hJ; subst hJ; rw [tags_append, tags_cons]; simp [tagAt, tags]
        · rfl
      simp only [line, hqs, seen, List.filterMap_cons]
      exact List.Sublist.refl _
    · intro J m hm hk b hb
      simp only [upd] at hm
      split at hm
      · rename_i hJ; subst hJ
        rw [List.mem_append] at hm
        rcases hm with hm | hm
        · exact i.que _ m hm hk b hb
        · simp at hm; subst hm; cases hb
      · exact i.que J m hm hk b hb
    · intro s' n' a' o' h'
      simp only [upd] at h'
      split at h'
      · rename_i hs; subst hs
        rw [AMap.find_erase] at h'
        split at h'
        · cases h'
        · exact i.own _ _ _ _ h'
      · exact i.own _ _ _ _ h'

/-- what is left in a map is found only if it was found -/
theorem find_filter {m : AMap Nat (Nat × Nat)} (hn : (AMap.keys m).Nodup) (f : Nat × (Nat × Nat) → Bool) (n : Nat) :
    AMap.find (m.filter f) n = (AMap.find m n).filter (fun v => f (n, v)) := by
  induction m with
  | nil => rfl
  | cons p r ih =>
    obtain ⟨k, v⟩ := p
    simp only [AMap.keys, List.map_cons, List.nodup_cons] at hn
    have ih := ih hn.2
    by_cases hk : k = n
    · subst hk
      have hr : AMap.find r k = none := (AMap.find_eq_none_iff r k).2 hn.1
      rw [hr] at ih
      simp only [List.filter_cons]
      split
      · rename_i hf; simp [AMap.find, Option.filter, hf]
      · rename_i hf; rw [ih]; simp [AMap.find, Option.filter, hf]
    · simp only [List.filter_cons]
      split
      · simp only [AMap.find, hk, if_false]; exact ih
      · simp only [AMap.find, hk, if_false]; exact ih

/-- the numbers in the tables are different -/
structure Nums (c : Cfg) (σ : State) : Prop where
  nodup : ∀ s, (AMap.keys (σ.pend s)).Nodup
  low : ∀ s n, n ∈ AMap.keys (σ.pend s) → n ≤ σ.last (c.loc s)

theorem Nums.init (c : Cfg) : Nums c .init := ⟨fun _ => List.nodup_nil, fun _ _ h => by cases h⟩

theorem step_nums {c : Cfg} {σ : State} (i : Nums c σ) (op : Op) : Nums c (step c σ op) := by
  have her : ∀ s n, Nums c { σ with pend := upd σ.pend s (AMap.erase (σ.pend s) n) } := by
    intro s n
    refine ⟨?_, ?_⟩
    · intro t; simp only [upd]; split
      · exact AMap.keys_erase_nodup _ _ (i.nodup s)
      · exact i.nodup t
    · intro t k hk; simp only [upd] at hk; split at hk
      · rename_i h; subst h; exact i.low _ k ((AMap.mem_keys_erase _ _ _).1 hk).2
      · exact i.low t k hk
  cases op with
  | request a b o =>
    simp only [step, request, push]
    refine ⟨?_, ?_⟩
    · intro t; simp only [upd]; split
      · simp only [AMap.keys, List.map_cons, List.nodup_cons]
        refine ⟨fun h => ?_, i.nodup _⟩
        have := i.low _ _ h
        omega
      · exact i.nodup t
    · intro t k hk; simp only [upd] at hk ⊢; split at hk
      · rename_i h; subst h
        simp only [AMap.keys, List.map_cons, List.mem_cons] at hk
        simp only [if_true]
        rcases hk with hk | hk
        · omega
        · have := i.low _ _ hk; omega
      · have := i.low t k hk
        split
        · rename_i h; rw [h] at this; omega
        · exact this
  | send a b x => exact ⟨i.nodup, i.low⟩
  | reply b s n x => simp only [step]; split <;> exact ⟨i.nodup, i.low⟩
  | turn L =>
    simp only [step, turn]
    split
    · exact i
    · split
      · split
        · simp only [onReply]
          split
          · exact ⟨i.nodup, i.low⟩
          · exact ⟨(her _ _).nodup, (her _ _).low⟩
        · exact ⟨i.nodup, i.low⟩
      · exact ⟨i.nodup, i.low⟩
  | take L => exact ⟨i.nodup, i.low⟩
  | expire s n =>
    simp only [step, expire]
    split
    · exact i
    · exact ⟨(her _ _).nodup, (her _ _).low⟩
  | stop a =>
    simp only [step, stop]
    refine ⟨?_, ?_⟩
    · intro t; simp only [upd]; split
      · exact ((i.nodup _).sublist ((List.filter_sublist).map _))
      · exact i.nodup t
    · intro t k hk; simp only [upd] at hk; split at hk
      · rename_i h; subst h
        exact i.low _ k (((List.filter_sublist).map _).subset hk)
      · exact i.low t k hk

theorem seen_stopped (c : Cfg) (b L a s : Nat) (l : AMap Nat (Nat × Nat)) : seen c b L (l.map (fun p => Ev.stopped a s p.1)) = [] := by
  induction l with
  | nil => rfl
  | cons p r ih => simpa [seen] using ih

theorem step_oinv {c : Cfg} {K : Nat} {σ : State} (hg : c.Good) (i : OInv c K σ) (j : Nums c σ) {op : Op}
    (ho : ∀ a b o, op = .request a b o → c.loc o = K → c.loc a = K) : OInv c K (step c σ op) := by
  cases op with
  | request a b o =>
    simp only [step, request]
    apply push_oinv
    refine aside_oinv i rfl rfl rfl (fun _ => rfl) ?_
    intro s n a' o' h hK
    simp only [upd] at h
    split at h
    · rename_i hs; subst hs
      rw [find_cons] at h
      split at h
      · cases h; exact (hg a).trans (ho a b o rfl hK)
      · exact i.own _ _ _ _ h hK
    · exact i.own _ _ _ _ h hK
  | send a b x => exact push_oinv i a _
  | reply b s n x =>
    simp only [step]
    split
    · apply push_oinv; exact aside_oinv i rfl rfl rfl (fun _ => rfl) i.own
    · exact i
  | turn L => exact turn_oinv i L
  | take L => exact take_oinv i L
  | expire s n => exact expire_oinv i s n
  | stop a =>
    refine aside_oinv i rfl rfl rfl (fun b => ?_) ?_
    · simp only [step, stop, seen, List.filterMap_append]
      have := seen_stopped c b K a (c.supOf a) ((σ.pend (c.supOf a)).filter (fun p => decide (p.2.1 = a)))
      simp only [seen] at this
      rw [this]; rfl
    · intro s n a' o' h
      simp only [step, stop, upd] at h
      split at h
      · rename_i hs; subst hs
        rw [find_filter (j.nodup _)] at h
        cases hf : AMap.find (σ.pend (c.supOf a)) n with
        | none => rw [hf] at h; cases h
        | some v =>
          rw [hf] at h
          simp only [Option.filter] at h
          split at h
          · cases h; exact i.own _ _ _ _ hf
          · cases h
      · exact i.own _ _ _ _ h

theorem run_nums {c : Cfg} {σ : State} (j : Nums c σ) (ops : List Op) : Nums c (run c σ ops) := by
  induction ops generalizing σ with
  | nil => exact j
  | cons op r ih => exact ih (step_nums j op)

theorem run_oinv {c : Cfg} {K : Nat} {σ : State} (hg : c.Good) (i : OInv c K σ) (j : Nums c σ) {ops : List Op} (ho : Own c K ops) :
    OInv c K (run c σ ops) := by
  induction ops generalizing σ with
  | nil => exact i
  | cons op r ih =>
    exact ih (step_oinv hg i j (fun a b o h => ho a b o (h ▸ List.mem_cons_self))) (step_nums j op)
      (fun a b o h => ho a b o (List.mem_cons_of_mem _ h))

end Verif.Across
