import Verif.Proofs.ConvertLine
/-!
# Splitting depends on the text of the line alone

Two splitters with different histories, one of them with further bytes behind the terminator of the line, do the same.
This also holds between `throw_on_error` and the other error modes, as long as nothing is thrown.
-/
namespace Ssp
open Spec

/-- The outcomes agree.  `P`: also exceptions do. -/
def RelRes {α : Type} (P : Prop) (R : Spl → Spl → Prop) (r r' : Res Spl α) : Prop :=
  match r with
  | .ok a s => ∃ s', r' = .ok a s' ∧ R s s'
  | .exc e _ => P → ∃ s', r' = .exc e s'
  | _ => True

theorem RelRes.bind {α β : Type} {P : Prop} {R R' : Spl → Spl → Prop} {m m' : M Spl α} {f f' : α → M Spl β} {s s' : Spl}
    (h : RelRes P R (m s) (m' s')) (hf : ∀ a t t', R t t' → RelRes P R' (f a t) (f' a t')) :
    RelRes P R' ((m >>= f) s) ((m' >>= f') s') := by
  simp only [M.bind_apply]
  cases hm : m s with
  | ok a t =>
    rw [hm] at h
    obtain ⟨t', h1, h2⟩ := h
    rw [h1]
    exact hf a t t' h2
  | exc e t =>
    rw [hm] at h
    intro hp
    obtain ⟨t', h1⟩ := h hp
    exact ⟨t', by rw [h1]⟩
  | ub => trivial
  | nofuel => trivial

/-- an operation that only reads the line -/
def Look {α : Type} (m m' : M Spl α) : Prop := ∀ (s s' : Spl) (T : Bytes), s'.mem = s.mem ++ T →
  match m s with
  | .ok a t => t = s ∧ m' s' = .ok a s'
  | .exc _ _ => False
  | _ => True

theorem Look.rel {α : Type} {P : Prop} {R : Spl → Spl → Prop} {m m' : M Spl α} (h : Look m m') {s s' : Spl} {T : Bytes}
    (hm : s'.mem = s.mem ++ T) (hr : R s s') : RelRes P R (m s) (m' s') := by
  have := h s s' T hm
  cases hx : m s with
  | ok a t => rw [hx] at this; obtain ⟨rfl, h2⟩ := this; exact ⟨s', h2, hr⟩
  | exc e t => rw [hx] at this; exact this.elim
  | ub => trivial
  | nofuel => trivial

theorem Look.pure {α : Type} (a : α) : Look (pure a : M Spl α) (pure a) := fun _ _ _ _ => ⟨rfl, rfl⟩

theorem Look.bind {α β : Type} {m m' : M Spl α} {f f' : α → M Spl β} (h : Look m m') (hf : ∀ a, Look (f a) (f' a)) :
    Look (m >>= f) (m' >>= f') := by
  intro s s' T hm
  have := h s s' T hm
  simp only [M.bind_apply]
  cases hx : m s with
  | ok a t =>
    rw [hx] at this
    obtain ⟨rfl, h2⟩ := this
    rw [h2]
    exact hf a t s' T hm
  | exc e t => rw [hx] at this; exact this.elim
  | ub => trivial
  | nofuel => trivial

theorem Look.ite {α : Type} {p : Prop} [Decidable p] {a a' b b' : M Spl α} (h1 : Look a a') (h2 : Look b b') :
    Look (if p then a else b) (if p then a' else b') := by split <;> assumption

namespace Spl

theorem look_rd (p : Nat) : Look (rd p) (rd p) := by
  intro s s' T hm
  unfold rd
  cases h : s.mem[p]? with
  | none => trivial
  | some b =>
    have : s'.mem[p]? = some b := by
      rw [hm, List.getElem?_append_left (by
        have := List.getElem?_eq_some_iff.mp h
        exact this.1), h]
    exact ⟨rfl, by rw [this]⟩

theorem look_strncmpEq : ∀ (d : Bytes) (p : Nat), Look (strncmpEq p d) (strncmpEq p d)
  | [], p => by unfold strncmpEq; exact .pure _
  | d :: ds, p => by
    unfold strncmpEq
    exact .bind (look_rd p) fun b => .ite (.pure _) (.ite (.pure _) (look_strncmpEq ds (p + 1)))

theorem look_matchDelim (p : Nat) (d : Delim) : Look (matchDelim p d) (matchDelim p d) := by
  cases d with
  | chr b => unfold matchDelim; exact .bind (look_rd p) fun b => .pure _
  | str d => unfold matchDelim; exact look_strncmpEq d p

theorem look_skipWhile (set : List Byte) : ∀ (f f' p : Nat), f ≤ f' → Look (skipWhile set f p) (skipWhile set f' p)
  | 0, _, _, _ => fun _ _ _ _ => trivial
  | f + 1, 0, _, h => by omega
  | f + 1, f' + 1, p, h => by
    unfold skipWhile
    exact .bind (look_rd p) fun b => .ite (look_skipWhile set f f' (p + 1) (by omega)) (.pure _)

theorem look_trim (set : List Byte) (p : Nat) : Look (trimIfEnabled set p) (trimIfEnabled set p) := by
  intro s s' T hm
  unfold trimIfEnabled
  by_cases hs : set = []
  · simp [hs]
  · simp only [hs, if_false]
    exact look_skipWhile set _ _ p (by rw [hm]; simp) s s' T hm

end Spl

/-- The splitters do the same from here on. -/
structure Twin (T : Bytes) (m m' : ErrMode) (s s' : Spl) : Prop where
  mem : s'.mem = s.mem ++ T
  data : s'.data = s.data
  begin_ : s'.begin_ = s.begin_
  done : s'.done = s.done
  idle : s.resplitting = false ∧ s'.resplitting = false
  uq : s'.unterminatedQuote = s.unterminatedQuote
  live : s.gen = s.lineGen ∧ s'.gen = s'.lineGen
  valid : s'.err.valid m' = s.err.valid m
  msg : m = m' → m = .string → s'.err.msg = s.err.msg

/-- also inside `read` -/
structure Twins (T : Bytes) (m m' : ErrMode) (s s' : Spl) : Prop extends Twin T m m' s s' where
  escaped : s'.escaped = s.escaped
  curr : s'.curr = s.curr
  end_ : s'.end_ = s.end_

/-- the setups are the same, but one of them may throw -/
structure TwinCfg (c c' : Cfg) : Prop where
  same : c' = { c with mode := c'.mode }
  mode : c.mode = c'.mode ∨ c.mode = .throw

section
variable {c c' : Cfg} {T : Bytes} (hc : TwinCfg c c')
include hc

theorem TwinCfg.quote : c'.quote = c.quote := by rw [hc.same]
theorem TwinCfg.escape : c'.escape = c.escape := by rw [hc.same]
theorem TwinCfg.trimL : c'.trimL = c.trimL := by rw [hc.same]
theorem TwinCfg.trimR : c'.trimR = c.trimR := by rw [hc.same]
theorem TwinCfg.multiline : c'.multiline = c.multiline := by rw [hc.same]

local notation "TT" => Twins T c.mode c'.mode
local notation "PP" => c.mode = c'.mode

omit hc in
theorem twins_modify {f : Spl → Spl} {s s' : Spl} (h : TT (f s) (f s')) : RelRes PP TT (M.modify f s) (M.modify f s') :=
  ⟨_, rfl, h⟩

namespace Spl

theorem rel_handleError (m : Bytes) {s s' : Spl} (h : TT s s') : RelRes PP TT (handleError c m s) (handleError c' m s') := by
  unfold handleError
  rcases hc.mode with hm | hm
  · rw [← hm]
    cases hcm : c.mode with
    | throw => exact fun _ => ⟨_, rfl⟩
    | string =>
      refine ⟨_, rfl, { h with valid := ?_, msg := fun _ _ => ?_ }⟩
      · simp [ErrSt.set, ErrSt.valid]
      · simp [ErrSt.set]
    | bool =>
      refine ⟨_, rfl, { h with valid := ?_, msg := fun _ h => ?_ }⟩
      · simp [ErrSt.set, ErrSt.valid]
      · cases h
  · rw [hm]
    intro he
    rw [← he]
    exact ⟨_, rfl⟩

omit hc in
theorem rel_shift {s s' : Spl} (h : TT s s') : RelRes PP TT (shiftAndSetCurrent s) (shiftAndSetCurrent s') := by
  unfold shiftAndSetCurrent
  rw [h.escaped, h.curr, h.end_]
  by_cases he : s.escaped > 0
  · simp only [he, if_true]
    by_cases hb : s.curr + s.escaped + (s.end_ - s.curr - s.escaped) ≤ s.mem.length ∧ s.escaped ≤ s.end_
    · have hb' : s.curr + s.escaped + (s.end_ - s.curr - s.escaped) ≤ s'.mem.length ∧ s.escaped ≤ s.end_ := by
        rw [h.mem]; simp; omega
      rw [if_pos hb, if_pos hb']
      refine ⟨_, rfl, { h with mem := ?_, escaped := ?_, curr := rfl, end_ := ?_ }⟩
      · simp only
        rw [h.mem]
        rw [List.take_append_of_le_length (by omega), List.drop_append_of_le_length (by omega),
          List.drop_append_of_le_length (by omega), List.take_append_of_le_length (by rw [List.length_drop]; omega)]
        simp [List.append_assoc]
      · rfl
      · rfl
    · rw [if_neg hb]; trivial
  · simp only [he, if_false]
    exact ⟨_, rfl, { h with curr := rfl, escaped := rfl, end_ := rfl }⟩

theorem rel_jump {s s' : Spl} (h : TT s s') : RelRes PP TT (shiftAndJumpEscape c s) (shiftAndJumpEscape c' s') := by
  unfold shiftAndJumpEscape
  refine .bind (rel_shift h) fun _ t t' ht => ?_
  rw [hc.quote, hc.escape]
  refine twins_modify { ht with escaped := ?_, curr := ht.curr, end_ := ?_ }
  · simp only [ht.escaped]
  · simp only [ht.end_]

theorem rel_shiftIfEscaped (p : Nat) {s s' : Spl} (h : TT s s') : RelRes PP TT (shiftIfEscaped c p s) (shiftIfEscaped c' p s') := by
  unfold shiftIfEscaped
  rw [hc.escape, hc.multiline]
  split
  · exact ⟨_, rfl, h⟩
  · refine .bind ((look_rd p).rel h.mem h) fun b t t' ht => ?_
    split
    · refine .bind ((look_rd (p + 1)).rel ht.mem ht) fun n u u' hu => ?_
      split
      · cases c.multiline with
        | true =>
          exact twins_modify (f := fun s : Spl => { s with done := true }) { hu with done := rfl, escaped := hu.escaped, curr := hu.curr, end_ := hu.end_ }
        | false =>
          exact .bind (rel_handleError hc _ hu) fun _ v v' hv =>
            twins_modify { hv with done := rfl, escaped := hv.escaped, curr := hv.curr, end_ := hv.end_ }
      · exact rel_jump hc hu
    · exact ⟨_, rfl, ht⟩

theorem rel_matchDelimiter (d : Delim) (p : Nat) {s s' : Spl} (h : TT s s') :
    RelRes PP TT (matchDelimiter c d p s) (matchDelimiter c' d p s') := by
  unfold matchDelimiter
  rw [hc.trimR, hc.trimL]
  refine .bind ((look_trim _ p).rel h.mem h) fun e t t' ht => ?_
  refine .bind ((look_rd e).rel ht.mem ht) fun b u u' hu => ?_
  split
  · exact ⟨_, rfl, hu⟩
  · refine .bind ((look_matchDelim e d).rel hu.mem hu) fun b v v' hv => ?_
    split
    · exact .bind (rel_shiftIfEscaped hc e hv) fun _ w w' hw => ⟨_, rfl, hw⟩
    · exact .bind ((look_trim _ _).rel hv.mem hv) fun _ w w' hw => ⟨_, rfl, hw⟩

omit hc in
theorem rel_shiftAndPush {s s' : Spl} (h : TT s s') : RelRes PP TT (shiftAndPush s) (shiftAndPush s') := by
  unfold shiftAndPush
  refine .bind (rel_shift h) fun _ t t' ht => ?_
  exact twins_modify { ht with data := (by simp only [ht.data, ht.begin_, ht.curr]), escaped := ht.escaped, curr := ht.curr, end_ := ht.end_ }

omit hc in
theorem rel_shiftPushNext (n : Nat) {s s' : Spl} (h : TT s s') :
    RelRes PP TT (shiftPushAndStartNext n s) (shiftPushAndStartNext n s') := by
  unfold shiftPushAndStartNext
  refine .bind (rel_shiftAndPush h) fun _ t t' ht => ?_
  exact twins_modify { ht with begin_ := (by simp only [ht.end_]), escaped := ht.escaped, curr := ht.curr, end_ := ht.end_ }

theorem rel_readNormal (d : Delim) : ∀ (f f' : Nat), f ≤ f' → ∀ {s s' : Spl}, TT s s' →
    RelRes PP TT (readNormal c d f s) (readNormal c' d f' s')
  | 0, _, _, _, _, _ => trivial
  | f + 1, 0, h, _, _, _ => by omega
  | f + 1, f' + 1, hf, s, s', h => by
    unfold readNormal
    simp only [M.get_bind]
    rw [h.end_]
    refine .bind (rel_matchDelimiter hc d _ h) fun r t t' ht => ?_
    obtain ⟨w, v⟩ := r
    simp only
    split
    · split
      · exact .bind (rel_shiftAndPush ht) fun _ u u' hu =>
          twins_modify { hu with done := rfl, escaped := hu.escaped, curr := hu.curr, end_ := hu.end_ }
      · simp only [M.modify_bind]
        exact rel_readNormal d f f' (by omega) { ht with escaped := ht.escaped, curr := ht.curr, end_ := (by simp only [ht.end_]) }
    · exact rel_shiftPushNext _ ht

theorem rel_readQuoted (q : Byte) (d : Delim) : ∀ (f f' : Nat), f ≤ f' → ∀ {s s' : Spl}, TT s s' →
    RelRes PP TT (readQuoted c q d f s) (readQuoted c' q d f' s')
  | 0, _, _, _, _, _ => trivial
  | f + 1, 0, h, _, _, _ => by omega
  | f + 1, f' + 1, hf, s, s', h => by
    have next : ∀ {t t' : Spl}, TT t t' →
        RelRes PP TT (readQuoted c q d f { t with end_ := t.end_ + 1 }) (readQuoted c' q d f' { t' with end_ := t'.end_ + 1 }) :=
      fun ht => rel_readQuoted q d f f' (by omega) { ht with escaped := ht.escaped, curr := ht.curr, end_ := (by simp only [ht.end_]) }
    have fin : ∀ {t t' : Spl}, TT t t' → RelRes PP TT (M.modify (fun s : Spl => { s with done := true }) t) (M.modify (fun s : Spl => { s with done := true }) t') :=
      fun ht => twins_modify { ht with done := rfl, escaped := ht.escaped, curr := ht.curr, end_ := ht.end_ }
    unfold readQuoted
    simp only [M.get_bind]
    rw [h.end_, hc.escape, hc.multiline]
    refine .bind ((look_rd _).rel h.mem h) fun b t t' ht => ?_
    split
    · split
      · refine .bind ((look_rd _).rel ht.mem ht) fun n u u' hu => ?_
        split
        · cases c.multiline with
          | true => exact fin hu
          | false => exact .bind (rel_handleError hc _ hu) fun _ v v' hv => fin hv
        · refine .bind (rel_jump hc hu) fun _ v v' hv => ?_
          simp only [M.modify_bind]
          exact next hv
      · split
        · refine .bind (rel_shift ht) fun _ u u' hu => ?_
          simp only [M.modify_bind]
          have hu' : TT { u with unterminatedQuote := true } { u' with unterminatedQuote := true } :=
            { hu with uq := rfl, escaped := hu.escaped, curr := hu.curr, end_ := hu.end_ }
          have fin' : ∀ {t t' : Spl}, TT t t' →
              RelRes PP TT (M.modify (fun s : Spl => { s with data := s.data ++ [(0, s.begin_)], done := true }) t)
                (M.modify (fun s : Spl => { s with data := s.data ++ [(0, s.begin_)], done := true }) t') :=
            fun ht => twins_modify { ht with done := rfl, data := (by simp only [ht.data, ht.begin_]), escaped := ht.escaped, curr := ht.curr, end_ := ht.end_ }
          cases c.multiline with
          | true => exact fin' hu'
          | false => exact .bind (rel_handleError hc _ hu') fun _ v v' hv => fin' hv
        · simp only [M.modify_bind]
          exact next ht
    · refine .bind (rel_matchDelimiter hc d _ ht) fun r u u' hu => ?_
      obtain ⟨w, v⟩ := r
      simp only
      split
      · exact rel_shiftPushNext _ hu
      · simp only [M.get_bind]
        rw [hu.end_]
        refine .bind ((look_rd _).rel hu.mem hu) fun b1 v v' hv => ?_
        split
        · refine .bind (rel_jump hc hv) fun _ w w' hw => ?_
          simp only [M.modify_bind]
          exact next hw
        · split
          · exact .bind (rel_shiftAndPush hv) fun _ w w' hw => fin hw
          · refine .bind (rel_handleError hc _ hv) fun _ w w' hw => ?_
            simp only [M.modify_bind]
            exact fin { hw with data := (by simp only [hw.data, hw.begin_]), escaped := hw.escaped, curr := hw.curr, end_ := hw.end_ }

theorem rel_read (d : Delim) {s s' : Spl} (h : Twin T c.mode c'.mode s s') : RelRes PP TT (read c d s) (read c' d s') := by
  unfold read
  simp only [M.modify_bind, M.get_bind]
  rw [hc.quote, hc.multiline]
  have hlen : s.mem.length + 1 ≤ s'.mem.length + 1 := by rw [h.mem]; simp
  have hn : RelRes PP TT (readNormal c d (s.mem.length + 1) { s with escaped := 0, end_ := s.begin_, curr := s.begin_ })
      (readNormal c' d (s'.mem.length + 1) { s' with escaped := 0, end_ := s'.begin_, curr := s'.begin_ }) := by
    refine rel_readNormal hc d _ _ hlen { h with escaped := rfl, curr := ?_, end_ := ?_ } <;> simp only [h.begin_]
  cases c.quote with
  | none => exact hn
  | some q =>
    dsimp only
    rw [if_neg (by simp [h.idle.1]), if_neg (by simp [h.idle.2])]
    have hl : Look (rd s.begin_) (rd s'.begin_) := by rw [h.begin_]; exact look_rd _
    refine RelRes.bind (R := fun t t' => t = { s with escaped := 0 } ∧ t' = { s' with escaped := 0 })
      (hl.rel (s := { s with escaped := 0 }) (s' := { s' with escaped := 0 }) (T := T) h.mem (And.intro rfl rfl)) ?_
    rintro b t t' ⟨rfl, rfl⟩
    split
    · simp only [M.modify_bind]
      refine rel_readQuoted hc q d _ _ hlen { h with begin_ := ?_, escaped := rfl, curr := ?_, end_ := ?_ } <;> simp only [h.begin_]
    · simp only [M.modify_bind]
      exact hn

theorem rel_readLoop (d : Delim) : ∀ (f f' : Nat), f ≤ f' → ∀ {s s' : Spl}, Twin T c.mode c'.mode s s' →
    RelRes PP (Twin T c.mode c'.mode) (readLoop c d f s) (readLoop c' d f' s')
  | 0, _, _, _, _, _ => trivial
  | f + 1, 0, h, _, _, _ => by omega
  | f + 1, f' + 1, hf, s, s', h => by
    unfold readLoop
    simp only [M.get_bind]
    rw [h.done]
    split
    · exact ⟨_, rfl, h⟩
    · exact .bind (rel_read hc d h) fun _ t t' ht => rel_readLoop d f f' (by omega) ht.toTwin

theorem rel_splitImpl (d : Delim) {s s' : Spl} (h : Twin T c.mode c'.mode { s with done := false } { s' with done := false }) :
    RelRes PP (Twin T c.mode c'.mode) (splitImpl c d s) (splitImpl c' d s') := by
  unfold splitImpl
  simp only [M.get_bind]
  have hb : s'.begin_ = s.begin_ := h.begin_
  have hmem : s'.mem = s.mem ++ T := h.mem
  rw [hb, hc.trimL]
  refine RelRes.bind (R := fun t t' => t = s ∧ t' = s') ((look_trim _ _).rel hmem ⟨rfl, rfl⟩) ?_
  rintro b t t' ⟨rfl, rfl⟩
  simp only [M.modify_bind]
  exact rel_readLoop hc d _ _ (by rw [hmem]; simp) { h with begin_ := rfl, done := rfl }

/-- `split`, whatever the splitters did before -/
theorem rel_split {delim : Bytes} (hd : delim ≠ []) {s s' : Spl} (hm : s'.mem = s.mem ++ T) (h1 : s.resplitting = false) (h2 : s'.resplitting = false) :
    RelRes PP (Twin T c.mode c'.mode) (split c delim s) (split c' delim s') := by
  unfold split
  simp only [M.modify_bind]
  unfold splitImplSelectDelim clearError
  simp only [M.modify_bind]
  have h : Twin T c.mode c'.mode { s with data := [], begin_ := 0, lineGen := s.gen, done := false, err := s.err.clear c.mode, unterminatedQuote := false }
      { s' with data := [], begin_ := 0, lineGen := s'.gen, done := false, err := s'.err.clear c'.mode, unterminatedQuote := false } := by
    refine ⟨hm, rfl, rfl, rfl, ⟨h1, h2⟩, rfl, ⟨rfl, rfl⟩, ?_, fun he hs => ?_⟩
    · simp only [ErrSt.valid_clear]
    · simp only [← he, hs, ErrSt.clear]
  match delim, hd with
  | [b], _ => exact rel_splitImpl hc _ h
  | b :: b' :: ds, _ => exact rel_splitImpl hc _ h

end Spl
end
end Ssp
