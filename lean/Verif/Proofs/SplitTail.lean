import Verif.Proofs.SplitBasic
/-!
# A (re)split never writes behind the place where the text of the open field ends

`shift_and_set_current` moves text to lower addresses only; the bytes from `end_ - escaped_` on are those of the line that
was given.
-/
namespace Ssp.Spl
open Ssp

/-- if the operation returns, `P` holds -/
def Ends {α : Type} (P : α → Spl → Prop) : Res Spl α → Prop
  | .ok a s => P a s
  | _ => True

theorem Ends.bind {α β : Type} {P : α → Spl → Prop} {Q : β → Spl → Prop} {m : M Spl α} {f : α → M Spl β} {s : Spl}
    (h : Ends P (m s)) (hf : ∀ a t, P a t → Ends Q (f a t)) : Ends Q ((m >>= f) s) := by
  rw [M.bind_apply]
  cases hm : m s with
  | ok a t => rw [hm] at h; exact hf a t h
  | _ => trivial

theorem Ends.mono {α : Type} {P Q : α → Spl → Prop} {r : Res Spl α} (h : Ends P r) (hpq : ∀ a t, P a t → Q a t) : Ends Q r := by
  cases r with
  | ok a t => exact hpq a t h
  | _ => trivial

/-- an operation that changes nothing -/
def Still {α : Type} (m : M Spl α) : Prop := ∀ s, Ends (fun _ t => t = s) (m s)

theorem Still.bind {α β : Type} {m : M Spl α} {f : α → M Spl β} (h : Still m) (hf : ∀ a, Still (f a)) : Still (m >>= f) := by
  intro s
  refine (h s).bind fun a t ht => ?_
  subst ht; exact hf a _

theorem Still.ends {α : Type} {P : Spl → Prop} {m : M Spl α} (h : Still m) {s : Spl} (hp : P s) : Ends (fun _ => P) (m s) :=
  (h s).mono fun _ _ e => e ▸ hp

theorem rd_still (p : Nat) : Still (rd p) := by
  intro s; unfold rd
  cases s.mem[p]? with
  | none => trivial
  | some b => rfl

theorem strncmpEq_still : ∀ (ds : Bytes) (p : Nat), Still (strncmpEq p ds) := by
  intro ds
  induction ds with
  | nil => intro p s; rfl
  | cons d ds ih =>
    intro p
    unfold strncmpEq
    refine (rd_still p).bind fun b => ?_
    split
    · intro s; rfl
    · split
      · intro s; rfl
      · exact ih _

theorem matchDelim_still (p : Nat) (d : Delim) : Still (matchDelim p d) := by
  cases d with
  | chr d => exact (rd_still p).bind fun b s => rfl
  | str d => exact strncmpEq_still _ _

theorem skipWhile_still (set : List Byte) : ∀ (f p : Nat), Still (skipWhile set f p) := by
  intro f
  induction f with
  | zero => intro p s; trivial
  | succ f ih =>
    intro p
    unfold skipWhile
    refine (rd_still p).bind fun b => ?_
    split
    · exact ih _
    · intro s; rfl

theorem trimIfEnabled_still (set : List Byte) (p : Nat) : Still (trimIfEnabled set p) := by
  intro s
  unfold trimIfEnabled
  split
  · rfl
  · exact skipWhile_still _ _ _ s

/-- Inside a field: nothing was written from `curr_` on, and `curr_` is at least `c0`. -/
structure Ahead (mem0 : Bytes) (c0 : Nat) (s : Spl) : Prop where
  rest : s.mem.drop s.curr = mem0.drop s.curr
  from_ : c0 ≤ s.curr
  gap : s.curr + s.escaped ≤ s.end_
  idle : s.resplitting = false

variable {mem0 : Bytes} {c0 : Nat}

theorem Ahead.of {s s' : Spl} (h : Ahead mem0 c0 s) (h1 : s'.mem = s.mem) (h2 : s'.curr = s.curr)
    (h4 : s'.resplitting = s.resplitting)
    (h3 : s.end_ + s'.escaped ≤ s'.end_ + s.escaped) : Ahead mem0 c0 s' :=
  ⟨by rw [h1, h2]; exact h.rest, by rw [h2]; exact h.from_, by have := h.gap; omega, h4.trans h.idle⟩

theorem handleError_ahead {c : Cfg} {m : Bytes} {P : Spl → Prop} {s : Spl} (h : ∀ e, P { s with err := e }) :
    Ends (fun _ => P) (handleError c m s) := by
  unfold handleError
  cases c.mode with
  | throw => trivial
  | _ => exact h _

theorem shiftAndSetCurrent_ahead {s : Spl} (h : Ahead mem0 c0 s) :
    Ends (fun _ t => Ahead mem0 c0 t ∧ t.end_ = s.end_ ∧ t.curr + t.escaped = t.end_) (shiftAndSetCurrent s) := by
  have hg := h.gap
  unfold shiftAndSetCurrent
  by_cases he : s.escaped > 0
  · simp only [he, if_true]
    by_cases hb : s.curr + s.escaped + (s.end_ - s.curr - s.escaped) ≤ s.mem.length ∧ s.escaped ≤ s.end_
    · simp only [hb, and_self, if_true]
      refine ⟨⟨?_, ?_, ?_, h.idle⟩, rfl, ?_⟩
      · show List.drop (s.end_ - s.escaped) _ = _
        have hl : (s.mem.take s.curr ++ (s.mem.drop (s.curr + s.escaped)).take (s.end_ - s.curr - s.escaped)).length
            = s.end_ - s.escaped := by
          simp; omega
        rw [List.drop_left' hl]
        have e1 : s.curr + (s.end_ - s.curr - s.escaped) = s.end_ - s.escaped := by omega
        rw [e1]
        have e2 : s.end_ - s.escaped = s.curr + (s.end_ - s.escaped - s.curr) := by omega
        rw [e2, ← List.drop_drop, h.rest, List.drop_drop]
      · show c0 ≤ s.end_ - s.escaped
        have := h.from_; omega
      · show s.end_ - s.escaped + s.escaped ≤ s.end_
        omega
      · show s.end_ - s.escaped + s.escaped = s.end_
        omega
    · simp only [hb, if_false]; trivial
  · simp only [he, if_false]
    have h0 : s.escaped = 0 := by omega
    refine ⟨⟨?_, ?_, ?_, h.idle⟩, rfl, ?_⟩
    · show s.mem.drop s.end_ = mem0.drop s.end_
      have e2 : s.end_ = s.curr + (s.end_ - s.curr) := by omega
      rw [e2, ← List.drop_drop, h.rest, List.drop_drop]
    · show c0 ≤ s.end_
      have := h.from_; omega
    · show s.end_ + s.escaped ≤ s.end_
      omega
    · show s.end_ + s.escaped = s.end_
      omega

theorem shiftAndJumpEscape_ahead {c : Cfg} {s : Spl} (h : Ahead mem0 c0 s) :
    Ends (fun _ => Ahead mem0 c0) (shiftAndJumpEscape c s) := by
  unfold shiftAndJumpEscape
  refine (shiftAndSetCurrent_ahead h).bind fun _ t ht => ?_
  refine ht.1.of rfl rfl rfl ?_
  show t.end_ + _ ≤ _
  simp only
  split <;> omega

theorem shiftIfEscaped_ahead {c : Cfg} {p : Nat} {s : Spl} (h : Ahead mem0 c0 s) :
    Ends (fun _ => Ahead mem0 c0) (shiftIfEscaped c p s) := by
  unfold shiftIfEscaped
  split
  · exact h
  · refine ((rd_still p).ends h).bind fun b t h => ?_
    split
    · refine ((rd_still (p + 1)).ends h).bind fun n t h => ?_
      split
      · have hd : ∀ t : Spl, Ahead mem0 c0 t → Ends (fun _ => Ahead mem0 c0)
            (M.modify (fun s : Spl => { s with done := true }) t) := fun t h => h.of rfl rfl rfl (Nat.le_refl _)
        split
        · exact (handleError_ahead (P := Ahead mem0 c0) fun e => h.of rfl rfl rfl (Nat.le_refl _)).bind fun _ t h => hd t h
        · exact hd t h
      · exact shiftAndJumpEscape_ahead h
    · exact h

theorem matchDelimiter_ahead {c : Cfg} {d : Delim} {p : Nat} {s : Spl} (h : Ahead mem0 c0 s) :
    Ends (fun _ => Ahead mem0 c0) (matchDelimiter c d p s) := by
  unfold matchDelimiter
  refine ((trimIfEnabled_still _ _).ends h).bind fun e t h => ?_
  refine ((rd_still _).ends h).bind fun b t h => ?_
  split
  · exact h
  · refine ((matchDelim_still _ _).ends h).bind fun m t h => ?_
    split
    · exact (shiftIfEscaped_ahead h).bind fun _ t h => h
    · exact ((trimIfEnabled_still _ _).ends h).bind fun _ t h => h

theorem shiftAndPush_ahead {s : Spl} (h : Ahead mem0 c0 s) : Ends (fun _ => Ahead mem0 c0) (shiftAndPush s) := by
  unfold shiftAndPush
  refine (shiftAndSetCurrent_ahead h).bind fun _ t ht => ?_
  exact ht.1.of rfl rfl rfl (Nat.le_refl _)

/-- Between fields, or after the last one. -/
def Between (mem0 : Bytes) (c0 : Nat) (s : Spl) : Prop :=
  if s.done then Ahead mem0 c0 s
  else s.mem.drop s.begin_ = mem0.drop s.begin_ ∧ c0 ≤ s.begin_ ∧ s.resplitting = false

theorem Ahead.between_done {s : Spl} (h : Ahead mem0 c0 s) (hd : s.done = true) : Between mem0 c0 s := by
  unfold Between; rw [if_pos hd]; exact h

theorem shiftPushAndStartNext_between {s : Spl} {n : Nat} (h : Ahead mem0 c0 s) :
    Ends (fun _ => Between mem0 c0) (shiftPushAndStartNext n s) := by
  unfold shiftPushAndStartNext
  refine (shiftAndPush_ahead h).bind fun _ t h => ?_
  show Between mem0 c0 { t with begin_ := t.end_ + n }
  have hg := h.gap
  unfold Between
  split
  · exact h.of rfl rfl rfl (Nat.le_refl _)
  · refine ⟨?_, ?_, h.idle⟩
    · show t.mem.drop (t.end_ + n) = _
      have e2 : t.end_ + n = t.curr + (t.end_ + n - t.curr) := by omega
      show _ = mem0.drop (t.end_ + n)
      rw [e2, ← List.drop_drop, h.rest, List.drop_drop]
    · show c0 ≤ t.end_ + n
      have := h.from_; omega

theorem readNormal_between {c : Cfg} {d : Delim} : ∀ (f : Nat) {s : Spl}, Ahead mem0 c0 s →
    Ends (fun _ => Between mem0 c0) (readNormal c d f s) := by
  intro f
  induction f with
  | zero => intro s _; trivial
  | succ f ih =>
    intro s h
    unfold readNormal
    simp only [M.get_bind]
    refine (matchDelimiter_ahead h).bind fun r t h => ?_
    obtain ⟨w, v⟩ := r
    simp only
    split
    · split
      · refine (shiftAndPush_ahead h).bind fun _ t h => ?_
        exact Ahead.between_done (h.of rfl rfl rfl (Nat.le_refl _)) rfl
      · simp only [M.modify_bind]
        refine ih (h.of rfl rfl rfl ?_)
        show t.end_ + t.escaped ≤ t.end_ + w + t.escaped
        omega
    · exact shiftPushAndStartNext_between h

theorem readQuoted_between {c : Cfg} {q : Byte} {d : Delim} : ∀ (f : Nat) {s : Spl}, Ahead mem0 c0 s →
    Ends (fun _ => Between mem0 c0) (readQuoted c q d f s) := by
  intro f
  induction f with
  | zero => intro s _; trivial
  | succ f ih =>
    intro s h
    have hdone : ∀ t : Spl, Ahead mem0 c0 t → Ends (fun _ => Between mem0 c0)
        (M.modify (fun s : Spl => { s with done := true }) t) :=
      fun t h => Ahead.between_done (h.of rfl rfl rfl (Nat.le_refl _)) rfl
    have hstep : ∀ t : Spl, Ahead mem0 c0 t → Ends (fun _ => Between mem0 c0)
        ((M.modify (fun s : Spl => { s with end_ := s.end_ + 1 }) >>= fun _ => readQuoted c q d f) t) := by
      intro t h
      simp only [M.modify_bind]
      refine ih (h.of rfl rfl rfl ?_)
      show t.end_ + t.escaped ≤ t.end_ + 1 + t.escaped
      omega
    unfold readQuoted
    simp only [M.get_bind]
    refine ((rd_still _).ends h).bind fun b t h => ?_
    split
    · split
      · refine ((rd_still _).ends h).bind fun n t h => ?_
        split
        · split
          · exact (handleError_ahead (P := Ahead mem0 c0) fun e => h.of rfl rfl rfl (Nat.le_refl _)).bind fun _ t h => hdone t h
          · exact hdone t h
        · exact (shiftAndJumpEscape_ahead h).bind fun _ t h => hstep t h
      · split
        · refine (shiftAndSetCurrent_ahead h).bind fun _ t h => ?_
          simp only [M.modify_bind]
          have h2 : Ahead mem0 c0 { t with unterminatedQuote := true } := h.1.of rfl rfl rfl (Nat.le_refl _)
          have hl : ∀ t : Spl, Ahead mem0 c0 t → Ends (fun _ => Between mem0 c0)
              (M.modify (fun s : Spl => { s with data := s.data ++ [(0, s.begin_)], done := true }) t) :=
            fun t h => Ahead.between_done (h.of rfl rfl rfl (Nat.le_refl _)) rfl
          split
          · refine Ends.bind (P := fun _ => Ahead mem0 c0) (s := { t with unterminatedQuote := true }) ?_ fun _ t h => hl t h
            exact handleError_ahead fun e => h2.of rfl rfl rfl (Nat.le_refl _)
          · exact hl _ h2
        · exact hstep t h
    · refine (matchDelimiter_ahead h).bind fun r t h => ?_
      obtain ⟨w, v⟩ := r
      simp only
      split
      · exact shiftPushAndStartNext_between h
      · simp only [M.get_bind]
        refine ((rd_still _).ends h).bind fun b1 t h => ?_
        split
        · exact (shiftAndJumpEscape_ahead h).bind fun _ t h => hstep t h
        · split
          · exact (shiftAndPush_ahead h).bind fun _ t h => hdone t h
          · refine (handleError_ahead (P := Ahead mem0 c0) fun e => h.of rfl rfl rfl (Nat.le_refl _)).bind fun _ t h => ?_
            simp only [M.modify_bind]
            exact hdone _ (h.of rfl rfl rfl (Nat.le_refl _))

theorem read_between {c : Cfg} {d : Delim} {s : Spl} (h : Between mem0 c0 s) (hd : s.done = false) :
    Ends (fun _ => Between mem0 c0) (read c d s) := by
  unfold Between at h
  rw [if_neg (by rw [hd]; simp)] at h
  have hr := h.2.2
  have hN : ∀ f, Ends (fun _ => Between mem0 c0)
      (readNormal c d f { s with escaped := 0, end_ := s.begin_, curr := s.begin_, resplitting := false }) :=
    fun f => readNormal_between _ ⟨h.1, h.2.1, Nat.le_refl _, rfl⟩
  unfold read
  simp only [M.modify_bind, M.get_bind, hr, Bool.and_false, Bool.false_eq_true, if_false]
  cases c.quote with
  | none => simp only [M.modify_bind]; exact hN _
  | some q =>
    simp only
    refine (rd_still _ _).bind fun b t ht => ?_
    subst ht
    split
    · simp only [M.modify_bind]
      refine readQuoted_between _ ⟨?_, ?_, Nat.le_refl _, rfl⟩
      · show s.mem.drop (s.begin_ + 1) = mem0.drop (s.begin_ + 1)
        rw [← List.drop_drop, h.1, List.drop_drop]
      · show c0 ≤ s.begin_ + 1; have := h.2.1; omega
    · simp only [M.modify_bind]; exact hN _

theorem read_between_again {c : Cfg} {d : Delim} {s : Spl} (hq : c.quote ≠ none) (hml : c.multiline = true)
    (h : s.mem.drop s.curr = mem0.drop s.curr ∧ c0 ≤ s.curr ∧ s.curr ≤ s.end_) (hr : s.resplitting = true) :
    Ends (fun _ => Between mem0 c0) (read c d s) := by
  unfold read
  simp only [M.modify_bind, M.get_bind]
  cases hq' : c.quote with
  | none => exact absurd hq' hq
  | some q =>
    simp only [hml, hr, Bool.and_self, if_true, M.modify_bind]
    exact readQuoted_between _ ⟨h.1, h.2.1, h.2.2, rfl⟩

theorem readLoop_ahead {c : Cfg} {d : Delim} : ∀ (f : Nat) {s : Spl}, Between mem0 c0 s →
    Ends (fun _ => Ahead mem0 c0) (readLoop c d f s) := by
  intro f
  induction f with
  | zero => intro s _; trivial
  | succ f ih =>
    intro s h
    unfold readLoop
    simp only [M.get_bind]
    cases hd : s.done with
    | true =>
      unfold Between at h
      rw [if_pos hd] at h
      exact h
    | false =>
      simp only [Bool.false_eq_true, if_false]
      exact (read_between h hd).bind fun _ t h => ih h

theorem readLoop_again {c : Cfg} {d : Delim} {f : Nat} {s : Spl} (hq : c.quote ≠ none) (hml : c.multiline = true)
    (h : s.mem.drop s.curr = mem0.drop s.curr ∧ c0 ≤ s.curr ∧ s.curr ≤ s.end_) (hr : s.resplitting = true)
    (hd : s.done = false) : Ends (fun _ => Ahead mem0 c0) (readLoop c d f s) := by
  cases f with
  | zero => trivial
  | succ f =>
    unfold readLoop
    simp only [M.get_bind, hd, Bool.false_eq_true, if_false]
    exact (read_between_again hq hml h hr).bind fun _ t h => readLoop_ahead _ h

/-- `split` writes only in front of `end_ - escaped_`. -/
theorem split_rest {c : Cfg} {delim : Bytes} {s s' : Spl} (hd : delim ≠ []) (hr : s.resplitting = false)
    (h : split c delim s = .ok () s') :
    s'.mem.drop (s'.end_ - s'.escaped) = s.mem.drop (s'.end_ - s'.escaped) := by
  have key : Ends (fun _ => Ahead s.mem 0) (split c delim s) := by
    unfold split splitImplSelectDelim clearError
    simp only [M.modify_bind]
    have hi : ∀ d (t : Spl), t.mem = s.mem → t.resplitting = false → Ends (fun _ => Ahead s.mem 0) (splitImpl c d t) := by
      intro d t h1 h2
      unfold splitImpl
      simp only [M.get_bind]
      refine (trimIfEnabled_still _ _ _).bind fun b u hu => ?_
      cases hu
      simp only [M.modify_bind]
      refine readLoop_ahead _ ?_
      unfold Between
      rw [if_neg (by simp)]
      exact ⟨by show t.mem.drop b = _; rw [h1], Nat.zero_le _, h2⟩
    match delim, hd with
    | [b], _ => exact hi _ _ rfl hr
    | b :: b' :: ds, _ => exact hi _ _ rfl hr
  rw [h] at key
  have hg := key.gap
  have e : s'.end_ - s'.escaped = s'.curr + (s'.end_ - s'.escaped - s'.curr) := by omega
  rw [e, ← List.drop_drop, key.rest, List.drop_drop]

/-- `resplit` writes only between the end of the known text and `end_ - escaped_`. -/
theorem resplit_rest {c : Cfg} {delim : Bytes} {s s' : Spl} {n : Nat} {ds : List (Nat × Nat)} {b : Nat} (hd : delim ≠ [])
    (hq : c.quote ≠ none) (hml : c.multiline = true) (hdata : s.data = ds ++ [(0, b)]) (hu : s.unterminatedQuote = true)
    (hn : b - 1 ≤ n) (h : resplit c n delim s = .ok () s') :
    s'.mem.drop (s'.end_ - s'.escaped) = s.mem.drop (s'.end_ - s'.escaped) ∧
      s.end_ - s.escaped ≤ s'.end_ - s'.escaped := by
  have key : Ends (fun _ => Ahead s.mem (s.end_ - s.escaped)) (resplit c n delim s) := by
    unfold resplit
    simp only [M.get_bind]
    rw [if_neg (by simp [hq, hml, hdata, hu])]
    rw [hdata]
    simp only [List.getLast?_concat]
    rw [if_neg (by omega)]
    unfold splitImplSelectDelim clearError
    simp only [M.modify_bind, Nat.sub_zero]
    have hi : ∀ d (t : Spl), t.mem = s.mem → t.curr = s.end_ - s.escaped → t.end_ = s.end_ - s.escaped →
        t.resplitting = true → Ends (fun _ => Ahead s.mem (s.end_ - s.escaped)) (splitImpl c d t) := by
      intro d t h1 h2 h3 h4
      unfold splitImpl
      simp only [M.get_bind]
      refine (trimIfEnabled_still _ _ _).bind fun b u hu => ?_
      cases hu
      simp only [M.modify_bind]
      exact readLoop_again hq hml ⟨by show t.mem.drop t.curr = s.mem.drop t.curr; rw [h1], by show _ ≤ t.curr; omega,
        by show t.curr ≤ t.end_; omega⟩ h4 rfl
    match delim, hd with
    | [b], _ => exact hi _ _ rfl rfl rfl rfl
    | b :: b' :: ds, _ => exact hi _ _ rfl rfl rfl rfl
  rw [h] at key
  have hg := key.gap
  have hf := key.from_
  refine ⟨?_, by omega⟩
  have e : s'.end_ - s'.escaped = s'.curr + (s'.end_ - s'.escaped - s'.curr) := by omega
  rw [e, ← List.drop_drop, key.rest, List.drop_drop]

end Ssp.Spl
