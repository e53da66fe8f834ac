import Verif.Across.Fair
/-!
# C82: concrete cases, and the order of responses that are asked for elsewhere
-/

namespace Verif.Across

/-- actors 1, 2 in the locality 0 (supervisor 10), actors 3, 4 in the locality 1 (supervisor 11), actor 5 in the locality 2 (supervisor 12) -/
def three : Cfg where
  supOf := fun a => if a = 1 ∨ a = 2 ∨ a = 10 then 10 else if a = 3 ∨ a = 4 ∨ a = 11 then 11 else 12
  loc := fun a => if a = 1 ∨ a = 2 ∨ a = 10 then 0 else if a = 3 ∨ a = 4 ∨ a = 11 then 1 else 2

theorem three_good : three.Good := by
  intro a
  simp only [three]
  split
  · simp
  · split <;> simp

/-- 1 asks 3 and 3 asks 1; both requests have the number 1. 3 replies twice, and sends another message before and after -/
def both : List Op :=
  [.request 1 3 1, .request 3 1 3, .turn 0, .turn 1, .take 0, .take 1, .turn 0, .turn 1, .send 3 1 70, .reply 3 10 1 71, .reply 3 10 1 72, .send 3 1 73,
   .reply 1 11 1 74, .turn 0, .turn 1, .turn 1, .turn 1, .turn 1, .take 0, .take 1, .turn 1, .turn 1, .turn 0, .turn 0, .turn 0, .turn 0, .turn 0]

def gots (l : List Ev) : List Msg := (l.filterMap fun e => match e with | .got m => some m | _ => none).reverse

theorem both_own (K : Nat) : Own three K both := by
  intro a b o h
  simp [both] at h
  rcases h with ⟨rfl, rfl, rfl⟩ | ⟨rfl, rfl, rfl⟩ <;> exact id

/-- the hypotheses of `C82_right_one`, `C82_accounted`, `C82_order_partial` are met: each gets the response to its own request, in order, and once -/
theorem case_both : three.Good ∧ (∀ K, Own three K both) ∧ gots (run three .init both).log =
    [⟨.request 11 1 1, some 3, 0⟩, ⟨.request 10 1 3, some 1, 0⟩, ⟨.response 11 1 3 (some 74), some 1, 1⟩,
     ⟨.other 1 70, some 3, 1⟩, ⟨.response 10 1 1 (some 71), some 3, 2⟩, ⟨.other 1 73, some 3, 4⟩] ∧
    responses 10 1 (run three .init both).log = 1 ∧ responses 11 1 (run three .init both).log = 1 :=
  ⟨three_good, both_own, by decide, by decide, by decide⟩

/-- 1 asks 5 for itself and for 3; 5 replies to both -/
def mixed : List Op :=
  [.request 1 5 3, .request 1 5 1, .turn 0, .turn 0, .take 2, .turn 2, .turn 2, .reply 5 10 1 70, .send 5 1 71, .reply 5 10 2 72, .turn 2, .turn 2, .turn 2,
   .take 0, .turn 0, .turn 0, .turn 0, .turn 0, .turn 0, .take 1, .turn 1]

/-- `C82_order_partial` speaks about the locality 0, where every response is asked for at home, although the condition fails for the locality 1 -/
theorem case_mixed : Own three 0 mixed ∧ ¬ Own three 1 mixed ∧ gots (run three .init mixed).log =
    [⟨.request 10 1 5, some 1, 0⟩, ⟨.request 10 2 5, some 1, 1⟩, ⟨.other 1 71, some 5, 1⟩, ⟨.response 10 2 1 (some 72), some 5, 2⟩,
     ⟨.response 10 1 3 (some 70), some 5, 0⟩] := by
  refine ⟨?_, ?_, by decide⟩
  · intro a b o h
    simp [mixed] at h
    rcases h with ⟨rfl, rfl, rfl⟩ | ⟨rfl, rfl, rfl⟩ <;> decide
  · intro h
    exact absurd (h 1 5 3 (by simp [mixed]) rfl) (by decide)

/-- the states of a request, `C82_accounted` -/
theorem case_accounted :
    AMap.find ((run three .init [.request 1 3 1]).pend 10) 1 = some (1, 1) ∧
    .stopped 1 10 1 ∈ (run three .init [.request 1 3 1, .stop 1]).log ∧
    (run three .init [.request 1 3 1, .expire 10 1]).queue 0 = [⟨.request 10 1 3, some 1, 0⟩, ⟨.response 10 1 1 none, none, 0⟩] ∧
    responses 10 1 (run three .init [.request 1 3 1, .expire 10 1, .turn 0, .turn 0]).log = 1 := by decide

/-- the hypotheses of `C82_prompt` and `C82_late` are met -/
theorem case_prompt :
    (run three .init (both.take 23)).queue 0 = [⟨.reply 10 1 71, some 3, 2⟩, ⟨.reply 10 1 72, some 3, 3⟩, ⟨.other 1 73, some 3, 4⟩] ∧
    AMap.find ((run three .init (both.take 23)).pend 10) 1 = some (1, 1) ∧
    (run three .init (both.take 25)).queue 0 = [⟨.reply 10 1 72, some 3, 3⟩, ⟨.other 1 73, some 3, 4⟩] ∧
    AMap.find ((run three .init (both.take 25)).pend 10) 1 = none := by decide

/-- the hypotheses of `C82_seen` are met: after five turns the last message is seen -/
theorem case_seen : (run three .init (both.take 23)).queue 0 =
      [⟨.reply 10 1 71, some 3, 2⟩, ⟨.reply 10 1 72, some 3, 3⟩] ++ ⟨.other 1 73, some 3, 4⟩ :: [] ∧
    .got ⟨.other 1 73, some 3, 4⟩ ∈ (run three (run three .init (both.take 23)) (List.replicate 5 (.turn 0))).log := by decide

/-- the hypotheses of `C82_sent_on` and `C82_taken` are met -/
theorem case_sent_on : (run three .init [.request 1 3 1]).queue 0 = [] ++ ⟨.request 10 1 3, some 1, 0⟩ :: [] ∧
    (run three .init [.request 1 3 1, .turn 0]).inbound 1 = [⟨.request 10 1 3, some 1, 0⟩] ∧
    (run three .init [.request 1 3 1, .turn 0, .take 1]).queue 1 = [⟨.request 10 1 3, some 1, 0⟩] := by decide

/-- the hypotheses of `C82_at_home` are met -/
theorem case_at_home : (run three .init ([.request 1 3 1, .turn 0, .take 1] ++ [.turn 1])).log =
    .got ⟨.request 10 1 3, some 1, 0⟩ :: (run three .init [.request 1 3 1, .turn 0, .take 1]).log := by decide

/-- 1 asks 3, the event loops go round, and 3 replies when it has seen the request -/
def rounds (k : Nat) : Op :=
  if k = 0 then .request 1 3 1 else if k = 14 then .reply 3 10 1 70 else
  match k % 6 with
  | 0 => .turn 0 | 1 => .turn 1 | 2 => .turn 2 | 3 => .take 0 | 4 => .take 1 | _ => .take 2

theorem rounds_fair : Fair three rounds := by
  have h : ∀ k r, r < 6 → ∃ d, (k + d) % 6 = r ∧ k + d ≠ 0 ∧ k + d ≠ 14 := by
    intro k r hr
    exact ⟨(r + 6 - k % 6) % 6 + 18, by omega, by omega, by omega⟩
  have hl : ∀ a, three.loc a = 0 ∨ three.loc a = 1 ∨ three.loc a = 2 := by
    intro a; simp only [three]; split
    · exact .inl rfl
    · split
      · exact .inr (.inl rfl)
      · exact .inr (.inr rfl)
  intro a k
  rcases hl a with e | e | e <;> rw [e]
  · obtain ⟨d, h1, h2, h3⟩ := h k 0 (by omega); obtain ⟨d', h1', h2', h3'⟩ := h k 3 (by omega)
    exact ⟨⟨d, by simp only [rounds]; rw [if_neg h2, if_neg h3, h1]; rfl⟩, ⟨d', by simp only [rounds]; rw [if_neg h2', if_neg h3', h1']; rfl⟩⟩
  · obtain ⟨d, h1, h2, h3⟩ := h k 1 (by omega); obtain ⟨d', h1', h2', h3'⟩ := h k 4 (by omega)
    exact ⟨⟨d, by simp only [rounds]; rw [if_neg h2, if_neg h3, h1]; rfl⟩, ⟨d', by simp only [rounds]; rw [if_neg h2', if_neg h3', h1']; rfl⟩⟩
  · obtain ⟨d, h1, h2, h3⟩ := h k 2 (by omega); obtain ⟨d', h1', h2', h3'⟩ := h k 5 (by omega)
    exact ⟨⟨d, by simp only [rounds]; rw [if_neg h2, if_neg h3, h1]; rfl⟩, ⟨d', by simp only [rounds]; rw [if_neg h2', if_neg h3', h1']; rfl⟩⟩

/-- the hypotheses of `C82_arrives`, `C82_asked` and `C82_answered` are met -/
theorem case_rounds : Fair three rounds ∧ rounds 0 = .request 1 3 1 ∧ rounds 14 = .reply 3 10 1 70 ∧
    .made 10 1 1 1 ∈ (run three .init (upto rounds 14)).log ∧ responses 10 1 (run three .init (upto rounds 14)).log = 0 ∧
    .got ⟨.response 10 1 1 (some 70), some 3, 0⟩ ∈ (run three .init (upto rounds 32)).log :=
  ⟨rounds_fair, rfl, rfl, by decide, by decide, by decide⟩

/-- **C82**, what is not so: a response that is asked for in another locality (`request_via`) takes the way through the locality of the one who asks, and
can be overtaken by a message that the same actor sends later to the same address. -/
theorem C82_via_order_counterexample : ∃ (ops : List Op) (m m' : Msg) (new old : List Ev), three.Good ∧
    (run three .init ops).log = new ++ .got m :: old ∧ .got m' ∈ old ∧ m.src = some 5 ∧ m'.src = some 5 ∧ m'.to = m.to ∧ m.seq < m'.seq := by
  refine ⟨[.request 1 5 3, .turn 0, .take 2, .turn 2, .reply 5 10 1 70, .send 5 3 71, .turn 2, .turn 2, .take 1, .turn 1, .take 0, .turn 0, .turn 0, .take 1, .turn 1],
    ⟨.response 10 1 3 (some 70), some 5, 0⟩, ⟨.other 3 71, some 5, 1⟩, [], _, three_good, rfl, ?_, rfl, rfl, rfl, by decide⟩
  decide

end Verif.Across
