import Verif.Naming.Spec

/-! # C77: names of actors and texts of errors -/

namespace Verif.Naming

open Verif.Texts (Text)

/-! ## Codes -/

def allTexts : List Text :=
  c!"unknown" :: c!"unknown shutdown reason" :: (ErrCode.all.map ErrCode.text ++ ShutCode.all.map ShutCode.text)

theorem mem_all (e : ErrCode) : e ∈ ErrCode.all := by cases e <;> decide

theorem mem_all' (e : ShutCode) : e ∈ ShutCode.all := by cases e <;> decide

theorem nodup_all : allTexts.Nodup := by decide

theorem no_angle : ∀ t ∈ allTexts, '<' ∉ t := by decide

theorem no_blank_end : ∀ t ∈ allTexts, t.getLast? ≠ some ' ' ∧ t ≠ [] := by decide

/-- no text of a code ends with a blank and the text of another one -/
theorem no_suffix : ∀ t ∈ allTexts, ∀ u ∈ allTexts, ¬ (' ' :: t) <:+ u := by decide

theorem errMessage_mem (c : Int) : errMessage c ∈ allTexts := by
  unfold errMessage
  split
  · rename_i e _
    exact List.mem_cons_of_mem _ (List.mem_cons_of_mem _ (List.mem_append_left _ (List.mem_map_of_mem (mem_all e))))
  · exact List.mem_cons_self

theorem shutMessage_mem (c : Int) : shutMessage c ∈ allTexts := by
  unfold shutMessage
  split
  · rename_i e _
    exact List.mem_cons_of_mem _ (List.mem_cons_of_mem _ (List.mem_append_right _ (List.mem_map_of_mem (mem_all' e))))
  · exact List.mem_cons_of_mem _ List.mem_cons_self

theorem message_mem {others : Nat → Int → Text} {c : Code} (h : c.ours) : c.message others ∈ allTexts := by
  unfold Code.message
  rcases h with h | h <;> rw [h]
  · exact errMessage_mem _
  · exact shutMessage_mem _

theorem errFind (c : Int) : (∃ e : ErrCode, e.value = c ∧ ErrCode.all.find? (fun e => e.value == c) = some e) ∨
    ((∀ e : ErrCode, e.value ≠ c) ∧ ErrCode.all.find? (fun e => e.value == c) = none) := by
  cases h : ErrCode.all.find? (fun e => e.value == c) with
  | some e => exact .inl ⟨e, by simpa using List.find?_some h, rfl⟩
  | none =>
    refine .inr ⟨fun e he => ?_, rfl⟩
    have := List.find?_eq_none.1 h e (mem_all e)
    simp [he] at this

theorem shutFind (c : Int) : (∃ e : ShutCode, e.value = c ∧ ShutCode.all.find? (fun e => e.value == c) = some e) ∨
    ((∀ e : ShutCode, e.value ≠ c) ∧ ShutCode.all.find? (fun e => e.value == c) = none) := by
  cases h : ShutCode.all.find? (fun e => e.value == c) with
  | some e => exact .inl ⟨e, by simpa using List.find?_some h, rfl⟩
  | none =>
    refine .inr ⟨fun e he => ?_, rfl⟩
    have := List.find?_eq_none.1 h e (mem_all' e)
    simp [he] at this

theorem err_inj (a b : ErrCode) (h : a.text = b.text) : a = b := by
  cases a <;> cases b <;> first | rfl | exact absurd h (by decide)

theorem shut_inj (a b : ShutCode) (h : a.text = b.text) : a = b := by
  cases a <;> cases b <;> first | rfl | exact absurd h (by decide)

theorem cross (a : ErrCode) (b : ShutCode) : a.text ≠ b.text := by
  cases a <;> cases b <;> decide

theorem err_unknown (a : ErrCode) : a.text ≠ c!"unknown" ∧ a.text ≠ c!"unknown shutdown reason" := by cases a <;> decide

theorem shut_unknown (a : ShutCode) : a.text ≠ c!"unknown" ∧ a.text ≠ c!"unknown shutdown reason" := by cases a <;> decide

theorem known_err (v : Int) : Code.known ⟨.error, v⟩ ↔ ∃ e : ErrCode, e.value = v := by
  constructor
  · rintro (⟨e, h⟩ | ⟨e, h⟩)
    · simp only [ErrCode.code, Code.mk.injEq, true_and] at h; exact ⟨e, h.symm⟩
    · simp [ShutCode.code] at h
  · rintro ⟨e, rfl⟩; exact .inl ⟨e, rfl⟩

theorem known_shut (v : Int) : Code.known ⟨.shutdown, v⟩ ↔ ∃ e : ShutCode, e.value = v := by
  constructor
  · rintro (⟨e, h⟩ | ⟨e, h⟩)
    · simp [ErrCode.code] at h
    · simp only [ShutCode.code, Code.mk.injEq, true_and] at h; exact ⟨e, h.symm⟩
  · rintro ⟨e, rfl⟩; exact .inr ⟨e, rfl⟩

/-- The text of a code of the library tells its category and its value; only values that mean nothing share a text, one for each category. -/
theorem C77_codes (others : Nat → Int → Text) {c d : Code} (hc : c.ours) (hd : d.ours) (h : c.message others = d.message others) :
    Code.same c d := by
  obtain ⟨cc, cv⟩ := c
  obtain ⟨dc, dv⟩ := d
  simp only [Code.ours] at hc hd
  rcases hc with rfl | rfl <;> rcases hd with rfl | rfl <;> simp only [Code.message, errMessage, shutMessage] at h
  · rcases errFind cv with ⟨e, he, h1⟩ | ⟨he, h1⟩ <;> rcases errFind dv with ⟨f, hf, h2⟩ | ⟨hf, h2⟩ <;> rw [h1, h2] at h
    · subst he; subst hf; rw [err_inj e f h]; exact .inl rfl
    · exact absurd h (err_unknown e).1
    · exact absurd h.symm (err_unknown f).1
    · refine .inr ⟨rfl, ?_, ?_⟩ <;> rw [known_err] <;> rintro ⟨x, hx⟩
      · exact he x hx
      · exact hf x hx
  · rcases errFind cv with ⟨e, he, h1⟩ | ⟨he, h1⟩ <;> rcases shutFind dv with ⟨f, hf, h2⟩ | ⟨hf, h2⟩ <;> rw [h1, h2] at h
    · exact absurd h (cross e f)
    · exact absurd h (err_unknown e).2
    · exact absurd h.symm (shut_unknown f).1
    · exact absurd h (by decide)
  · rcases shutFind cv with ⟨e, he, h1⟩ | ⟨he, h1⟩ <;> rcases errFind dv with ⟨f, hf, h2⟩ | ⟨hf, h2⟩ <;> rw [h1, h2] at h
    · exact absurd h.symm (cross f e)
    · exact absurd h (shut_unknown e).1
    · exact absurd h.symm (err_unknown f).2
    · exact absurd h (by decide)
  · rcases shutFind cv with ⟨e, he, h1⟩ | ⟨he, h1⟩ <;> rcases shutFind dv with ⟨f, hf, h2⟩ | ⟨hf, h2⟩ <;> rw [h1, h2] at h
    · subst he; subst hf; rw [shut_inj e f h]; exact .inl rfl
    · exact absurd h (shut_unknown e).2
    · exact absurd h.symm (shut_unknown f).2
    · refine .inr ⟨rfl, ?_, ?_⟩ <;> rw [known_shut] <;> rintro ⟨x, hx⟩
      · exact he x hx
      · exact hf x hx

/-- The codes that the library makes are all different. -/
theorem C77_made_codes (e f : ErrCode) (s t : ShutCode) :
    (e.code = f.code → e = f) ∧ (s.code = t.code → s = t) ∧ e.code ≠ s.code := by
  refine ⟨fun h => ?_, fun h => ?_, by simp [ErrCode.code, ShutCode.code]⟩
  · simp only [ErrCode.code, Code.mk.injEq, true_and] at h
    revert h; cases e <;> cases f <;> decide
  · simp only [ShutCode.code, Code.mk.injEq, true_and] at h
    revert h; cases s <;> cases t <;> decide

/-- a part of a text -/
def occurs (k : Text) : Text → Bool
  | [] => k.isPrefixOf []
  | c :: t => k.isPrefixOf (c :: t) || occurs k t

theorem occurs_infix {k t : Text} (h : occurs k t = true) : k <:+: t := by
  induction t with
  | nil => exact (List.isPrefixOf_iff_prefix.1 h).isInfix
  | cons c t ih =>
    simp only [occurs, Bool.or_eq_true] at h
    rcases h with h | h
    · exact (List.isPrefixOf_iff_prefix.1 h).isInfix
    · exact (ih h).trans (List.suffix_cons c t).isInfix

/-- The text of every code that the library makes contains the words by which it is known. -/
theorem C77_words (others : Nat → Int → Text) (e : ErrCode) (s : ShutCode) :
    (∀ k ∈ e.keywords, k <:+: e.code.message others) ∧ (∀ k ∈ s.keywords, k <:+: s.code.message others) := by
  constructor
  · intro k hk
    refine occurs_infix ?_
    rw [show e.code.message others = errMessage e.value from rfl]
    revert k
    cases e <;> decide
  · intro k hk
    refine occurs_infix ?_
    rw [show s.code.message others = shutMessage s.value from rfl]
    revert k
    cases s <;> decide

/-! ## Identities -/

theorem fold_last (f : Text × Bool → Text) (cs : List (Text × Bool)) (x : Text) :
    cs.foldl (fun _ c => f c) x = (cs.getLast?.map f).getD x := by
  induction cs generalizing x with
  | nil => rfl
  | cons c cs ih =>
    rw [List.foldl_cons, ih]
    cases cs with
    | nil => rfl
    | cons d ds =>
      rw [List.getLast?_cons_cons, List.getLast?_eq_some_getLast (by simp)]
      rfl

/-- what holds of every actor -/
structure AInv (addrText : Nat → Text) (σ : State) : Prop where
  identity : ∀ a ∈ σ.actors, a.identity = activate addrText a.addr a.sup a.calls
  inside : ∀ a ∈ σ.actors, a.addr ∈ σ.addrs
  apart : σ.actors.Pairwise fun a b => a.addr ≠ b.addr

theorem step_ainv {addrText : Nat → Text} {σ σ' : State} {l : Label} (h : AInv addrText σ) (hs : step addrText σ l = some σ') :
    AInv addrText σ' := by
  obtain ⟨h1, h2, h3⟩ := h
  cases l with
  | activate id addr sup calls =>
    simp only [step] at hs
    split at hs <;> simp only [Option.some.injEq, reduceCtorEq] at hs
    rename_i hn
    subst hs
    refine ⟨?_, ?_, ?_⟩
    · intro a ha
      rcases List.mem_cons.1 ha with rfl | ha
      · rfl
      · exact h1 a ha
    · intro a ha
      rcases List.mem_cons.1 ha with rfl | ha
      · exact List.mem_cons_self
      · exact List.mem_cons_of_mem _ (h2 a ha)
    · refine List.pairwise_cons.2 ⟨fun b hb e => hn (.inl ?_), h3⟩
      have e : addr = b.addr := e
      exact e ▸ h2 b hb
  | address addr =>
    simp only [step] at hs
    split at hs <;> simp only [Option.some.injEq, reduceCtorEq] at hs
    subst hs
    exact ⟨h1, fun a ha => List.mem_cons_of_mem _ (h2 a ha), h3⟩
  | destroy id =>
    simp only [step, Option.some.injEq] at hs
    subst hs
    exact ⟨fun a ha => h1 a (List.mem_filter.1 ha).1, fun a ha => h2 a (List.mem_filter.1 ha).1, h3.filter _⟩
  | free addr =>
    simp only [step] at hs
    split at hs <;> simp only [Option.some.injEq, reduceCtorEq] at hs
    rename_i hn
    subst hs
    refine ⟨h1, fun a ha => List.mem_filter.2 ⟨h2 a ha, ?_⟩, h3⟩
    simp only [ne_eq, decide_not, Bool.not_eq_eq_eq_not, Bool.not_true, decide_eq_false_iff_not]
    exact fun e => hn (List.mem_map.2 ⟨a, ha, e⟩)

theorem Reachable.ainv {addrText : Nat → Text} {σ : State} (h : Reachable addrText σ) : AInv addrText σ := by
  obtain ⟨ls, hr⟩ := h
  have h0 : AInv addrText ⟨[], []⟩ := ⟨by simp, by simp, by simp⟩
  generalize (⟨[], []⟩ : State) = τ at hr h0
  induction ls generalizing τ with
  | nil => simp only [run, Option.some.injEq] at hr; subst hr; exact h0
  | cons l ls ih =>
    simp only [run] at hr
    split at hr
    · simp at hr
    · rename_i σ1 h1
      exact ih σ1 hr (step_ainv h0 h1)

/-- The identity of an actor is what `configure` said last, with the address if wanted; `supervisor` or `actor` with the address if nothing was said. -/
theorem C77_identity {addrText : Nat → Text} {σ : State} (hr : Reachable addrText σ) {a : Actor} (ha : a ∈ σ.actors) :
    match said a with
    | .appended name => a.identity = name ++ [' '] ++ addrText a.addr
    | .plain name => a.identity = name
    | .nothing => a.identity = (if a.sup then c!"supervisor" else c!"actor") ++ [' '] ++ addrText a.addr := by
  have h := hr.ainv.identity a ha
  unfold said
  cases hl : a.calls.getLast? with
  | none =>
    simp only [activate, fold_last, hl] at h
    simpa [setIdentity] using h
  | some c =>
    simp only [activate, fold_last, hl] at h
    obtain ⟨n, b⟩ := c
    cases b
    · cases n with
      | nil => simpa [setIdentity] using h
      | cons x xs => simpa [setIdentity] using h
    · simpa [setIdentity] using h

/-- No actor is without a name. -/
theorem C77_never_empty {addrText : Nat → Text} {σ : State} (hr : Reachable addrText σ) {a : Actor} (ha : a ∈ σ.actors) :
    a.identity ≠ [] := by
  have h := C77_identity hr ha
  have hs : ∀ name, said a = .plain name → name ≠ [] := by
    intro name hn
    unfold said at hn
    split at hn <;> simp at hn
    rw [← hn]; simp
  cases hc : said a with
  | appended name => rw [hc] at h; simp only at h; rw [h]; simp
  | plain name => rw [hc] at h; simp only at h; rw [h]; exact hs name hc
  | nothing => rw [hc] at h; simp only at h; rw [h]; simp

theorem named_identity {addrText : Nat → Text} {σ : State} (hr : Reachable addrText σ) {a : Actor} (ha : a ∈ σ.actors) {name : Text}
    (hn : named a = some name) : a.identity = name ++ [' '] ++ addrText a.addr := by
  have h := C77_identity hr ha
  unfold named at hn
  cases hc : said a with
  | appended n => rw [hc] at h hn; simp only [Option.some.injEq] at hn h; rw [h, hn]
  | plain n => rw [hc] at hn; simp at hn
  | nothing => rw [hc] at h hn; simp only [Option.some.injEq] at hn h; rw [h, hn]

/-- the last word of a text -/
theorem last_word {x y u v : Text} (hu : ' ' ∉ u) (hv : ' ' ∉ v) (h : x ++ [' '] ++ u = y ++ [' '] ++ v) : x = y ∧ u = v := by
  have key : ∀ (x u : Text), ' ' ∉ u → (x ++ [' '] ++ u).reverse.takeWhile (· ≠ ' ') = u.reverse := by
    intro x u hu
    simp only [List.append_assoc, List.reverse_append, List.reverse_cons, List.reverse_nil, List.nil_append]
    rw [List.takeWhile_append_of_pos]
    · simp
    · intro c hc
      simp only [ne_eq, decide_not, Bool.not_eq_eq_eq_not, Bool.not_true, decide_eq_false_iff_not]
      exact fun e => hu (e ▸ List.mem_reverse.1 hc)
  have e := key x u hu
  rw [h, key y v hv] at e
  have huv : u = v := by simpa using e.symm
  subst huv
  exact ⟨by simpa using h, rfl⟩

/-- Different actors that live at the same time have different identities, if their addresses are part of them: that is so unless `configure` said
otherwise. -/
theorem C77_tell_actors {addrText : Nat → Text} (hp : Plain addrText) {σ : State} (hr : Reachable addrText σ) {a b : Actor}
    (ha : a ∈ σ.actors) (hb : b ∈ σ.actors) {n m : Text} (hna : named a = some n) (hnb : named b = some m)
    (h : a.identity = b.identity) : a = b := by
  rw [named_identity hr ha hna, named_identity hr hb hnb] at h
  have he := hp.inj _ _ (last_word (hp.blank _) (hp.blank _) h).2
  have hpw := hr.ainv.apart
  generalize σ.actors = L at ha hb hpw
  induction L with
  | nil => simp at ha
  | cons x xs ih =>
    obtain ⟨h1, h2⟩ := List.pairwise_cons.1 hpw
    rcases List.mem_cons.1 ha with ea | ha' <;> rcases List.mem_cons.1 hb with eb | hb'
    · rw [ea, eb]
    · subst ea; exact absurd he (h1 b hb')
    · subst eb; exact absurd he.symm (h1 a ha')
    · exact ih ha' hb' h2

/-! ## Errors -/

theorem own_plain (others : Nat → Int → Text) (e : Err) : own others false e = e.context ++ [' '] ++ e.ec.message others := by
  unfold own; cases e.request <;> simp

/-- What an error says begins with the identity of its actor and the text of its code, and goes on with the errors below it. -/
theorem C77_error (others : Nat → Int → Text) (identity : Text) (ec : Code) (next : List Err) (request : Option Text) :
    message others false (makeError identity ec next request) =
      identity ++ [' '] ++ ec.message others ++ (if next = [] then [] else c!" <- " ++ message others false next) := by
  cases next with
  | nil => simp [makeError, message, own_plain]
  | cons f fs => simp [makeError, message, own_plain]

/-- With a stringifier the request of the first error is shown behind its code; the rest is as without. -/
theorem C77_request (others : Nat → Int → Text) (identity : Text) (ec : Code) (next : List Err) (r : Text) :
    message others true (makeError identity ec next (some r)) =
        identity ++ [' '] ++ ec.message others ++ c!" [" ++ r ++ c!"]" ++ (if next = [] then [] else c!" <- " ++ message others false next) ∧
      message others true (makeError identity ec next none) = message others false (makeError identity ec next none) := by
  cases next with
  | nil => simp [makeError, message, own]
  | cons f fs => simp [makeError, message, own]

theorem own_angle {others : Nat → Int → Text} {e : Err} (h : e.ordinary) : '<' ∉ own others false e := by
  rw [own_plain]
  have := no_angle _ (message_mem (others := others) h.1)
  simp [h.2, this]

theorem own_end {others : Nat → Int → Text} {e : Err} (h : e.ordinary) : (own others false e).getLast? ≠ some ' ' := by
  rw [own_plain]
  have := no_blank_end _ (message_mem (others := others) h.1)
  rw [List.getLast?_append]
  cases hl : (e.ec.message others).getLast? with
  | none => simp only [List.getLast?_eq_none_iff] at hl; exact absurd hl this.2
  | some c => rw [hl] at this; simpa using this.1

theorem own_same {others : Nat → Int → Text} {e f : Err} (he : e.ordinary) (hf : f.ordinary) (h : own others false e = own others false f) :
    e.context = f.context ∧ Code.same e.ec f.ec := by
  rw [own_plain, own_plain] at h
  have me := message_mem (others := others) he.1
  have mf := message_mem (others := others) hf.1
  generalize ht : e.ec.message others = t at h me
  generalize hu : f.ec.message others = u at h mf
  have key : ∀ {x y : Text} {t u : Text}, t ∈ allTexts → u ∈ allTexts → t.length ≤ u.length → x ++ [' '] ++ t = y ++ [' '] ++ u → x = y ∧ t = u := by
    intro x y t u ht hu hle h
    have s1 : t <:+ y ++ [' '] ++ u := ⟨x ++ [' '], h⟩
    have s2 : u <:+ y ++ [' '] ++ u := List.suffix_append ..
    have s3 := List.suffix_of_suffix_length_le s1 s2 hle
    rcases Nat.lt_or_ge t.length u.length with hlt | hge
    · exfalso
      have s4 : (' ' :: t) <:+ y ++ [' '] ++ u := ⟨x, by simpa using h⟩
      have s5 := List.suffix_of_suffix_length_le s4 s2 (by rw [List.length_cons]; exact hlt)
      exact no_suffix t ht u hu s5
    · have e := s3.eq_of_length_le hge
      subst e
      exact ⟨by simpa using h, rfl⟩
  have fin : e.context = f.context ∧ t = u := by
    rcases Nat.le_total t.length u.length with hle | hle
    · exact key me mf hle h
    · have := key mf me hle h.symm; exact ⟨this.1.symm, this.2.symm⟩
  refine ⟨fin.1, C77_codes others he.1 hf.1 ?_⟩
  rw [ht, hu, fin.2]

theorem cut_last {a : Text} (h : '<' ∉ a) : a.takeWhile (· ≠ '<') = a := by
  induction a with
  | nil => rfl
  | cons c cs ih =>
    simp only [List.mem_cons, not_or] at h
    rw [List.takeWhile_cons_of_pos (by simpa using Ne.symm h.1), ih h.2]

theorem cut_arrow {a r : Text} (h : '<' ∉ a) : (a ++ c!" <- " ++ r).takeWhile (· ≠ '<') = a ++ [' '] := by
  induction a with
  | nil => rfl
  | cons c cs ih =>
    simp only [List.mem_cons, not_or] at h
    simp only [List.cons_append]
    rw [List.takeWhile_cons_of_pos (by simpa using Ne.symm h.1)]
    simp only [List.cons.injEq, true_and]
    exact ih h.2

theorem same_nil : SameStory [] [] := ⟨rfl, rfl, fun i h => absurd h (by simp)⟩

theorem same_cons {e f : Err} {c d : List Err} (h1 : e.context = f.context) (h2 : Code.same e.ec f.ec) (h : SameStory c d) :
    SameStory (e :: c) (f :: d) := by
  obtain ⟨a, b, g⟩ := h
  refine ⟨by simp [h1, a], by simp [b], ?_⟩
  intro i hi hi'
  cases i with
  | zero => exact h2
  | succ i => exact g i (by simpa using hi) (by simpa using hi')

/-- Two errors of the library that read the same tell the same story: the same actors, one below the other, failed with the same codes. -/
theorem C77_told (others : Nat → Int → Text) {c d : List Err} (hc : ∀ e ∈ c, e.ordinary) (hd : ∀ e ∈ d, e.ordinary) (hcn : c ≠ [])
    (hdn : d ≠ []) (h : message others false c = message others false d) : SameStory c d := by
  induction c generalizing d with
  | nil => exact absurd rfl hcn
  | cons e c ih =>
    cases d with
    | nil => exact absurd rfl hdn
    | cons f d =>
      have he := hc e List.mem_cons_self
      have hf := hd f List.mem_cons_self
      cases c with
      | nil =>
        cases d with
        | nil =>
          simp only [message] at h
          have := own_same he hf h
          exact same_cons this.1 this.2 same_nil
        | cons f' d =>
          exfalso
          simp only [message] at h
          have h' := congrArg (List.takeWhile (· ≠ '<')) h
          rw [cut_last (own_angle he), cut_arrow (own_angle hf)] at h'
          have := own_end (others := others) he
          rw [h'] at this
          simp at this
      | cons e' c =>
        cases d with
        | nil =>
          exfalso
          simp only [message] at h
          have h' := congrArg (List.takeWhile (· ≠ '<')) h
          rw [cut_last (own_angle hf), cut_arrow (own_angle he)] at h'
          have := own_end (others := others) hf
          rw [← h'] at this
          simp at this
        | cons f' d =>
          simp only [message] at h
          have h' := congrArg (List.takeWhile (· ≠ '<')) h
          rw [cut_arrow (own_angle he), cut_arrow (own_angle hf)] at h'
          have h1 : own others false e = own others false f := by simpa using h'
          rw [h1] at h
          have h2 : message others false (e' :: c) = message others false (f' :: d) := by simpa using h
          have := own_same he hf h1
          exact same_cons this.1 this.2
            (ih (fun x hx => hc x (List.mem_cons_of_mem _ hx)) (fun x hx => hd x (List.mem_cons_of_mem _ hx)) (by simp) (by simp) h2)

/-- The text of an error tells which of the living actors has made it, and why. -/
theorem C77_who (others : Nat → Int → Text) {addrText : Nat → Text} (hp : Plain addrText) {σ : State} (hr : Reachable addrText σ)
    {a b : Actor} (ha : a ∈ σ.actors) (hb : b ∈ σ.actors) {n m : Text} (hna : named a = some n) (hnb : named b = some m) (hn : '<' ∉ n)
    (hm : '<' ∉ m) {ec ec' : Code} (hec : ec.ours) (hec' : ec'.ours) {below below' : List Err} (hc : ∀ e ∈ below, e.ordinary)
    (hd : ∀ e ∈ below', e.ordinary) {r r' : Option Text}
    (h : message others false (makeError a.identity ec below r) = message others false (makeError b.identity ec' below' r')) :
    a = b ∧ Code.same ec ec' ∧ SameStory below below' := by
  have hoa : '<' ∉ a.identity := by
    rw [named_identity hr ha hna]; simp [hn, hp.angle]
  have hob : '<' ∉ b.identity := by
    rw [named_identity hr hb hnb]; simp [hm, hp.angle]
  have hs := C77_told others (c := makeError a.identity ec below r) (d := makeError b.identity ec' below' r')
    (by intro e he
        rcases List.mem_cons.1 he with rfl | he
        · exact ⟨hec, hoa⟩
        · exact hc e he)
    (by intro e he
        rcases List.mem_cons.1 he with rfl | he
        · exact ⟨hec', hob⟩
        · exact hd e he)
    (by simp [makeError]) (by simp [makeError]) h
  obtain ⟨h1, h2, h3⟩ := hs
  simp only [makeError, List.map_cons, List.cons.injEq, List.length_cons, Nat.add_right_cancel_iff] at h1 h2
  refine ⟨C77_tell_actors hp hr ha hb hna hnb h1.1, h3 0 (by simp [makeError]) (by simp [makeError]), h1.2, h2, ?_⟩
  intro i hi hi'
  exact h3 (i + 1) (by simpa [makeError] using hi) (by simpa [makeError] using hi')

/-- That names do not contain the character of the arrow is necessary. -/
theorem C77_odd_name_counterexample (others : Nat → Int → Text) : ∃ c d : List Err, c.length ≠ d.length ∧ (∀ e ∈ c, e.ec.ours) ∧
    (∀ e ∈ d, e.ec.ours) ∧ message others false c = message others false d :=
  ⟨[⟨c!"a success <- b", ErrCode.success.code, none⟩], [⟨c!"a", ErrCode.success.code, none⟩, ⟨c!"b", ErrCode.success.code, none⟩],
    by decide, by simp [Code.ours, ErrCode.code], by simp [Code.ours, ErrCode.code], rfl⟩

/-- .. and so are the addresses in the identities: without them two actors may have the same. -/
theorem C77_same_name_counterexample (addrText : Nat → Text) : ∃ σ a b, Reachable addrText σ ∧ a ∈ σ.actors ∧ b ∈ σ.actors ∧ a.id ≠ b.id ∧
    a.identity = b.identity :=
  ⟨_, ⟨0, 100, c!"x", false, [(c!"x", false)]⟩, ⟨1, 101, c!"x", false, [(c!"x", false)]⟩,
    ⟨[.activate 0 100 false [(c!"x", false)], .activate 1 101 false [(c!"x", false)]], rfl⟩,
    List.mem_cons_of_mem _ List.mem_cons_self, List.mem_cons_self, by decide, rfl⟩

end Verif.Naming
