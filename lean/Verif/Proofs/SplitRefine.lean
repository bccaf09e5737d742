import Verif.Proofs.SplitBasic
/-!
# The in-place splitter computes `Spec.field` / `Spec.decode`
-/
namespace Ssp.Spl
open Ssp Ssp.Spec

/-- Outcome of an operation whose error is `se` in the flag modes and `te` in `throw_on_error` mode. -/
def Outcome (c : Cfg) (se te : Option Bytes) (s : Spl) (res : Res Spl Unit) (F : Spl → Prop)
    (P : Spl → Prop) : Prop :=
  match (if c.mode = .throw then te else none) with
  | some m => ∃ s', res = .exc m s' ∧ F s' ∧ s'.err = s.err ∧
      (c.multiline = true → s'.unterminatedQuote = s.unterminatedQuote)
  | none => ∃ s', res = .ok () s' ∧ F s' ∧
      s'.err = (match se with | none => s.err | some m => s.err.set c.mode m) ∧ P s'

/-- Result of reading one field of a line of `N` bytes which starts behind `pre`. -/
def Post (c : Cfg) (N : Nat) (s : Spl) (pre T : Bytes) (res : Res Spl Unit) : FieldRes → Prop
  | .next f rest => ∃ s' G, res = .ok () s' ∧ Frame pre.length N s s' ∧ s'.err = s.err ∧
      s'.mem = pre ++ (f ++ (G ++ (rest ++ NUL :: T))) ∧
      s'.data = s.data ++ [(pre.length, pre.length + f.length)] ∧
      s'.begin_ = pre.length + f.length + G.length ∧
      s'.unterminatedQuote = s.unterminatedQuote ∧ s'.done = s.done
  | .last f e => Outcome c (e.stringError c.multiline N) (e.throwError c.multiline N) s res
      (Frame pre.length N s) fun s' => ∃ G,
      s'.mem = pre ++ (f ++ (G ++ NUL :: T)) ∧
      s'.data = s.data ++ [(pre.length, pre.length + f.length)] ∧
      s'.unterminatedQuote = s.unterminatedQuote ∧ s'.done = true
  | .stop e => Outcome c (e.stringError c.multiline N) (e.throwError c.multiline N) s res
      (Frame pre.length N s) fun s' =>
      s'.done = true ∧
      match e with
      | .openQuote a => s'.unterminatedQuote = true ∧ s'.data = s.data ++ [(0, pre.length)] ∧
          ∃ G, s'.mem = pre ++ (a ++ (G ++ NUL :: T)) ∧ s'.begin_ = pre.length ∧
            s'.escaped = G.length ∧ s'.end_ = pre.length + a.length + G.length
      | .mismatch _ _ => s'.unterminatedQuote = s.unterminatedQuote ∧
          s'.data = s.data ++ [(0, pre.length)]
      | _ => s'.unterminatedQuote = s.unterminatedQuote ∧ s'.data = s.data

/-- Same observable members. -/
structure Same (lo hi : Nat) (s s' : Spl) : Prop where
  frame : Frame lo hi s s'
  err : s'.err = s.err
  data : s'.data = s.data
  uq : s'.unterminatedQuote = s.unterminatedQuote
  done : s'.done = s.done

theorem Same.refl (lo hi : Nat) (s : Spl) : Same lo hi s s := ⟨Frame.refl _ _ _, rfl, rfl, rfl, rfl⟩
theorem Same.trans {lo hi : Nat} {s s' s'' : Spl} (h : Same lo hi s s') (h' : Same lo hi s' s'') :
    Same lo hi s s'' :=
  ⟨h.frame.trans h'.frame, h'.err.trans h.err, h'.data.trans h.data, h'.uq.trans h.uq,
    h'.done.trans h.done⟩

theorem Outcome.imp {c : Cfg} {se te : Option Bytes} {s s' : Spl} {res : Res Spl Unit}
    {F F' P P' : Spl → Prop} (he : s'.err = s.err) (hu : s'.unterminatedQuote = s.unterminatedQuote)
    (hF : ∀ x, F x → F' x) (hP : ∀ x, F x → P x → P' x)
    (h : Outcome c se te s' res F P) : Outcome c se te s res F' P' := by
  unfold Outcome at *
  split at h
  · obtain ⟨x, h1, h2, h3, h4⟩ := h; exact ⟨x, h1, hF x h2, h3.trans he, fun h => (h4 h).trans hu⟩
  · obtain ⟨x, h1, h2, h3, h4⟩ := h
    refine ⟨x, h1, hF x h2, ?_, hP x h2 h4⟩
    rw [h3]; cases se <;> simp [he]

theorem Outcome.of_none {c : Cfg} {s s' : Spl} {res : Res Spl Unit} {F P : Spl → Prop}
    (h : res = .ok () s') (hF : F s') (he : s'.err = s.err) (hP : P s') :
    Outcome c none none s res F P := by
  unfold Outcome
  simp only [ite_self]
  exact ⟨s', h, hF, he, hP⟩

theorem Outcome.of_flag {c : Cfg} {s s' : Spl} {res : Res Spl Unit} {F P : Spl → Prop} {m : Bytes}
    {te : Option Bytes} (hm : c.mode ≠ .throw) (h : res = .ok () s') (hF : F s')
    (he : s'.err = s.err.set c.mode m) (hP : P s') : Outcome c (some m) te s res F P := by
  unfold Outcome
  simp only [hm, if_false]
  exact ⟨s', h, hF, he, hP⟩

theorem Outcome.of_throw {c : Cfg} {s s' : Spl} {res : Res Spl Unit} {F P : Spl → Prop} {m : Bytes}
    {se : Option Bytes} (hm : c.mode = .throw) (h : res = .exc m s') (hF : F s')
    (he : s'.err = s.err) (hu : c.multiline = true → s'.unterminatedQuote = s.unterminatedQuote) :
    Outcome c se (some m) s res F P := by
  unfold Outcome
  simp only [hm, if_true]
  exact ⟨s', h, hF, he, hu⟩

theorem Post.of_same {c : Cfg} {N : Nat} {s s' : Spl} {pre T : Bytes} {res : Res Spl Unit}
    {fr : FieldRes} (hs : Same pre.length N s s') (h : Post c N s' pre T res fr) :
    Post c N s pre T res fr := by
  cases fr with
  | next f rest =>
    obtain ⟨s2, G, h1, h2, h3, h4, h5, h6, h7, h8⟩ := h
    exact ⟨s2, G, h1, hs.frame.trans h2, h3.trans hs.err, h4, by rw [h5, hs.data], h6,
      h7.trans hs.uq, h8.trans hs.done⟩
  | last f e =>
    refine Outcome.imp hs.err hs.uq (fun x hx => hs.frame.trans hx) ?_ h
    rintro x _ ⟨G, h1, h2, h3, h4⟩
    exact ⟨G, h1, by rw [h2, hs.data], h3.trans hs.uq, h4⟩
  | stop e =>
    refine Outcome.imp hs.err hs.uq (fun x hx => hs.frame.trans hx) ?_ h
    rintro x _ ⟨h1, h2⟩
    refine ⟨h1, ?_⟩
    cases e <;> simp only [hs.data, hs.uq] at h2 ⊢ <;> exact h2

/-- consuming text without closing a gap -/
theorem Fld.advance {s : Spl} {pre acc x r T : Bytes} {n : Nat} (h : Fld s pre acc (x ++ r) T)
    (hn : n = x.length) :
    Fld { s with end_ := s.end_ + n } pre (acc ++ x) r T := by
  obtain ⟨a1, g, a2, hm, ha, hb, hcu, he, hen⟩ := h
  exact ⟨a1, g, a2 ++ x, by simp [hm], by simp [ha], hb, hcu, he, by simp [hen, hn]; omega⟩

theorem same_end (lo hi : Nat) (s : Spl) (n : Nat) : Same lo hi s { s with end_ := n } :=
  ⟨Frame.of_mem rfl rfl rfl rfl, rfl, rfl, rfl, rfl⟩

theorem Fld.mem_eq {s : Spl} {pre acc r T : Bytes} (h : Fld s pre acc r T) :
    ∃ A, s.mem = A ++ (r ++ NUL :: T) ∧ s.end_ = A.length := by
  obtain ⟨a1, g, a2, hm, ha, hb, hcu, he, hen⟩ := h
  exact ⟨pre ++ (a1 ++ (g ++ a2)), by simp [hm], by simp [hen]; omega⟩

/-- closing the gap -/
theorem Fld.shift {s : Spl} {pre acc r T : Bytes} (h : Fld s pre acc r T) {N : Nat}
    (hN : N = s.end_ + r.length) :
    ∃ g' s', shiftAndSetCurrent s = .ok () s' ∧ Same pre.length N s s' ∧
      s'.mem = pre ++ (acc ++ (g' ++ (r ++ NUL :: T))) ∧ s'.curr = pre.length + acc.length ∧
      s'.end_ = pre.length + acc.length + g'.length ∧ s'.escaped = g'.length ∧
      s'.begin_ = pre.length ∧ s'.end_ = s.end_ := by
  obtain ⟨g', hg, hs, he⟩ := shift_spec h
  obtain ⟨a1, g, a2, hm, ha, hb, hcu, hes, hen⟩ := h
  refine ⟨g', _, hs, ⟨⟨rfl, rfl, rfl, ?_, ?_, ?_⟩, rfl, rfl, rfl, rfl⟩, rfl, rfl, he, hg.symm, hb, rfl⟩
  · simp [hm, ha]; omega
  · simp [hm]
  · have e1 : pre ++ (acc ++ (g' ++ (r ++ NUL :: T))) = (pre ++ (acc ++ (g' ++ r))) ++ NUL :: T := by simp
    have e2 : s.mem = (pre ++ (a1 ++ (g ++ (a2 ++ r)))) ++ NUL :: T := by simp [hm]
    show List.drop N (pre ++ (acc ++ (g' ++ (r ++ NUL :: T)))) = _
    rw [e1, e2, hN, hen]
    have hgl : (pre ++ (acc ++ (g' ++ r))).length = pre.length + a1.length + g.length + a2.length + r.length := by
      simp [ha, hg, hes]; omega
    rw [← hgl, List.drop_left]
    rw [show (pre ++ (acc ++ (g' ++ r))).length = (pre ++ (a1 ++ (g ++ (a2 ++ r)))).length by
      rw [hgl]; simp; omega, List.drop_left]

/-- `shift_and_jump_escape` drops the first unread byte. -/
theorem Fld.jump {c : Cfg} (hc : c.quote.isSome || !c.escape.isEmpty) {s : Spl}
    {pre acc r T : Bytes} {x : Byte} (h : Fld s pre acc (x :: r) T) {N : Nat}
    (hN : N = s.end_ + (r.length + 1)) :
    ∃ s', shiftAndJumpEscape c s = .ok () s' ∧ Same pre.length N s s' ∧ Fld s' pre acc r T ∧
      s'.end_ = s.end_ + 1 := by
  obtain ⟨g, s', h1, h2, h3, h4, h5, h6, h7, h8⟩ := h.shift (N := N) (by simp [hN])
  refine ⟨{ s' with escaped := s'.escaped + 1, end_ := s'.end_ + 1 }, ?_, ?_, ?_, by simp [h8]⟩
  · simp only [shiftAndJumpEscape]
    rw [M.bind_of_ok h1]
    simp [hc]
  · exact h2.trans ⟨Frame.of_mem rfl rfl rfl rfl, rfl, rfl, rfl, rfl⟩
  · exact ⟨acc, g ++ [x], [], by simp [h3], by simp, h7, h4, by simp [h6], by simp [h5]; omega⟩

/-- `shift_and_push` -/
theorem Fld.push {s : Spl} {pre acc r T : Bytes} (h : Fld s pre acc r T) {N : Nat}
    (hN : N = s.end_ + r.length) :
    ∃ g' s', shiftAndPush s = .ok () s' ∧ Frame pre.length N s s' ∧ s'.err = s.err ∧
      s'.mem = pre ++ (acc ++ (g' ++ (r ++ NUL :: T))) ∧
      s'.data = s.data ++ [(pre.length, pre.length + acc.length)] ∧
      s'.end_ = pre.length + acc.length + g'.length ∧
      s'.unterminatedQuote = s.unterminatedQuote ∧ s'.done = s.done := by
  obtain ⟨g, s', h1, h2, h3, h4, h5, h6, h7, h8⟩ := h.shift hN
  refine ⟨g, { s' with data := s'.data ++ [(s'.begin_, s'.curr)] }, ?_,
    h2.frame.trans (Frame.of_mem rfl rfl rfl rfl), h2.err, h3, ?_, h5, h2.uq, h2.done⟩
  · simp only [shiftAndPush]
    rw [M.bind_of_ok h1]; rfl
  · simp [h7, h4, h2.data]

theorem mem_tw {set r : Bytes} {y : Byte} (h : y ∈ r.takeWhile (· ∈ set)) : y ∈ set := by
  induction r with
  | nil => simp at h
  | cons x r ih =>
    rw [List.takeWhile_cons] at h
    split at h
    · rcases List.mem_cons.mp h with h | h
      · subst h; rename_i h'; simpa using h'
      · exact ih h
    · cases h

section fieldspec
set_option linter.unusedSectionVars false
variable {c : Cfg} (hc : c.WF) {d : Delim} (hd0 : NUL ∉ d.bytes)
include hc

/-- reading an unquoted field at the end of the line -/
theorem readNormal_eol {s : Spl} {pre acc r T : Bytes} {f N : Nat} (h : Fld s pre acc r T)
    (hr : r.dropWhile (· ∈ c.trimR) = []) (hf : 0 < f) (hN : N = s.end_ + r.length) :
    ∃ s' G, readNormal c d f s = .ok () s' ∧ Frame pre.length N s s' ∧ s'.err = s.err ∧
      s'.mem = pre ++ (acc ++ (G ++ NUL :: T)) ∧
      s'.data = s.data ++ [(pre.length, pre.length + acc.length)] ∧
      s'.unterminatedQuote = s.unterminatedQuote ∧ s'.done = true := by
  obtain ⟨A, hA, hE⟩ := h.mem_eq
  cases f with
  | zero => omega
  | succ f =>
    obtain ⟨g, s', h1, h2, h3, h4, h5, h6, h7, h8⟩ := h.push hN
    refine ⟨{ s' with done := true }, g ++ r, ?_, h2.trans (Frame.of_mem rfl rfl rfl rfl), h3,
      by simp [h4], h5, h7, rfl⟩
    simp only [readNormal, M.get_bind]
    rw [M.bind_of_ok (matchDelimiter_eol hc hA hE hr)]
    simp only [Bool.not_false, if_true]
    rw [M.bind_of_ok h1]; rfl

/-- the end-of-line branch of `shift_if_escaped` -/
theorem shiftIfEscaped_eol {s : Spl} {A T : Bytes} {x : Byte} {p : Nat} (hx : x ∈ c.escape)
    (hm : s.mem = A ++ x :: NUL :: T) (hp : p = A.length) :
    shiftIfEscaped c p s =
      if c.multiline then .ok () { s with done := true }
      else if c.mode = .throw then .exc msgUnterminatedEscape s
      else .ok () { s with done := true, err := s.err.set c.mode msgUnterminatedEscape } := by
  have hne : c.escape ≠ [] := fun h => by rw [h] at hx; cases hx
  simp only [shiftIfEscaped, hne, if_false]
  rw [rd_bind _ hm hp]
  simp only [hx, if_true]
  rw [rd_bind _ (x := NUL) (A := A ++ [x]) (B := T) (by simp [hm]) (by simp [hp])]
  simp only [if_true]
  by_cases hml : c.multiline <;> simp [hml]
  rcases hmo : c.mode <;> simp [handleError, hmo, M.bind_apply]

theorem shiftIfEscaped_jump {s : Spl} {A T : Bytes} {x y : Byte} {p : Nat} (hx : x ∈ c.escape)
    (hy : y ≠ NUL) (hm : s.mem = A ++ x :: y :: T) (hp : p = A.length) :
    shiftIfEscaped c p s = shiftAndJumpEscape c s := by
  have hne : c.escape ≠ [] := fun h => by rw [h] at hx; cases hx
  simp only [shiftIfEscaped, hne, if_false]
  rw [rd_bind _ hm hp]
  simp only [hx, if_true]
  rw [rd_bind _ (x := y) (A := A ++ [x]) (B := T) (by simp [hm]) (by simp [hp])]
  simp [hy]

theorem shiftIfEscaped_none {s : Spl} {A T : Bytes} {x : Byte} {p : Nat} (hx : x ∉ c.escape)
    (hm : s.mem = A ++ x :: T) (hp : p = A.length) : shiftIfEscaped c p s = .ok () s := by
  simp only [shiftIfEscaped]
  by_cases hne : c.escape = []
  · simp [hne]
  · simp only [hne, if_false]
    rw [rd_bind _ hm hp]
    simp [hx]

include hd0

theorem readNormal_spec : ∀ (n : Nat) (r : Bytes), r.length < n → NUL ∉ r →
    ∀ (s : Spl) (pre acc T : Bytes) (f N : Nat), Fld s pre acc r T → r.length < f →
      N = s.end_ + r.length →
      Post c N s pre T (readNormal c d f s) (field c d.bytes .normal acc r) := by
  intro n
  induction n with
  | zero => intro r h; omega
  | succ n ih =>
    intro r hrn hr0 s pre acc T f N hF hf hN
    obtain ⟨A, hA, hE⟩ := hF.mem_eq
    have hsplit := takeWhile_append_dropWhile' c.trimR r
    have hlen := length_tw c.trimR r
    rw [field]
    split
    · rename_i hdw
      obtain ⟨s', G, h1, h2, h3, h4, h5, h6, h7⟩ :=
        readNormal_eol (d := d) (f := f) hc hF hdw (by omega) hN
      exact Outcome.of_none h1 h2 h3 ⟨G, h4, h5, h6, h7⟩
    · rename_i x xs hdw
      rw [hdw] at hsplit hlen
      simp only [List.length_cons] at hlen
      have hx0 : NUL ∉ x :: xs := fun hx => hr0 (by rw [← hsplit]; exact List.mem_append_right _ hx)
      generalize hts : r.takeWhile (· ∈ c.trimR) = ts at *
      cases f with
      | zero => omega
      | succ f =>
      cases hpre : d.bytes.isPrefixOf (x :: xs) with
      | true =>
        simp only [if_true]
        -- a delimiter
        obtain ⟨g, s', h1, h2, h3, h4, h5, h6, h7, h8⟩ := hF.push hN
        obtain ⟨t, ht⟩ := List.isPrefixOf_iff_prefix.mp hpre
        have hdrop : (x :: xs).drop d.bytes.length = t := by rw [← ht]; simp
        have htt := takeWhile_append_dropWhile' c.trimL t
        refine ⟨{ s' with begin_ := s'.end_ + (ts.length + d.bytes.length +
            (t.takeWhile (· ∈ c.trimL)).length) },
          g ++ ts ++ d.bytes ++ t.takeWhile (· ∈ c.trimL), ?_,
          h2.trans (Frame.of_mem rfl rfl rfl rfl), h3, ?_, h5, ?_, h7, h8⟩
        · simp only [readNormal, M.get_bind]
          rw [M.bind_of_ok (matchDelimiter_delim hc hd0 hA hE hr0 hdw hpre)]
          simp only [Bool.not_true, Bool.false_eq_true, if_false, shiftPushAndStartNext]
          rw [M.bind_of_ok h1, hdrop, hts]; rfl
        · simp only [afterDelim, hdrop, h4]
          rw [← hsplit, ← ht]
          generalize List.dropWhile (fun x => decide (x ∈ c.trimL)) t = t2 at *
          generalize List.takeWhile (fun x => decide (x ∈ c.trimL)) t = t1 at *
          subst htt
          simp
        · simp [h6]; omega
      | false =>
        simp only [Bool.false_eq_true, if_false]
        have hstep : readNormal c d (f + 1) s =
            (shiftIfEscaped c (s.end_ + ts.length) >>= fun _ =>
              M.modify (fun s => { s with end_ := s.end_ + (1 + ts.length) }) >>= fun _ =>
              readNormal c d f) s := by
          simp only [readNormal, M.get_bind]
          rw [M.bind_apply, matchDelimiter_other hc hd0 hA hE hr0 hdw hpre, hts, M.bind_apply]
          rw [M.bind_apply]
          cases shiftIfEscaped c (s.end_ + ts.length) s <;> simp
        have hmx : s.mem = (A ++ ts) ++ x :: (xs ++ NUL :: T) := by
          rw [hA]; conv => lhs; rw [← hsplit]
          simp
        have hpx : s.end_ + ts.length = (A ++ ts).length := by simp [hE]
        by_cases hxe : x ∈ c.escape
        · simp only [hxe, if_true]
          have hne : (c.quote.isSome || !c.escape.isEmpty) = true := by
            have : c.escape ≠ [] := fun h => by rw [h] at hxe; cases hxe
            simp [this]
          cases xs with
          | nil =>
            simp only
            -- unterminated escape
            have he := shiftIfEscaped_eol (s := s) hc hxe hmx hpx
            have hF2 : Fld { s with end_ := s.end_ + (1 + ts.length) } pre (acc ++ (ts ++ [x])) [] T :=
              Fld.advance (x := ts ++ [x]) (r := []) (by simpa [← hsplit] using hF) (by simp; omega)
            have hl : ts.length + 1 = r.length := by simpa using hlen
            have key : ∀ (e : ErrSt) , ∃ s' G, readNormal c d f { s with done := true, err := e, end_ := s.end_ + (1 + ts.length) } = .ok () s' ∧
                Frame pre.length N s s' ∧ s'.err = e ∧ 
                s'.mem = pre ++ (acc ++ ts ++ [x] ++ (G ++ NUL :: T)) ∧
                s'.data = s.data ++ [(pre.length, pre.length + (acc ++ ts ++ [x]).length)] ∧
                s'.unterminatedQuote = s.unterminatedQuote ∧ s'.done = true := by
              intro e
              have hF3 : Fld { s with done := true, err := e, end_ := s.end_ + (1 + ts.length) } pre (acc ++ (ts ++ [x])) [] T := hF2
              obtain ⟨s', G, h1, h2, h3, h4, h5, h6, h7⟩ :=
                readNormal_eol (d := d) (f := f) (N := N) hc hF3 rfl (by omega) (by simp [hN, ← hl]; omega)
              exact ⟨s', G, h1, ⟨h2.1, h2.2, h2.3, h2.4, h2.5, h2.6⟩, h3, by simp [h4],
                by simp [h5], h6, h7⟩
            rw [hstep]
            unfold Post
            simp only [End.stringError, End.throwError]
            cases hml : c.multiline with
            | true =>
              simp only [if_true]
              rw [hml] at he
              obtain ⟨s', G, h1, h2, h3, h4, h5, h6, h7⟩ := key s.err
              refine Outcome.of_none (s' := s') ?_ h2 h3 ⟨G, by simpa using h4, h5, h6, h7⟩
              rw [M.bind_of_ok (by simpa using he)]
              exact h1
            | false =>
              simp only [hml, Bool.false_eq_true, if_false] at he ⊢
              by_cases hmo : c.mode = .throw
              · rw [if_pos hmo] at he
                exact Outcome.of_throw hmo (M.bind_of_exc he) (Frame.refl _ _ _) rfl fun _ => rfl
              · rw [if_neg hmo] at he
                obtain ⟨s', G, h1, h2, h3, h4, h5, h6, h7⟩ :=
                  key (s.err.set c.mode msgUnterminatedEscape)
                refine Outcome.of_flag (s' := s') hmo ?_ h2 h3 ⟨G, by simpa using h4, h5, h6, h7⟩
                rw [M.bind_of_ok he]
                exact h1
          | cons y ys =>
            simp only
            have hy0 : y ≠ NUL := fun h => hx0 (by simp [h])
            obtain ⟨u, us, hu⟩ : ∃ u us, ts ++ x :: y :: ys = u :: us := by
              cases ts <;> simp
            have htail : (ts ++ [x, y]).tail ++ ys = us := by
              have := congrArg List.tail hu
              rw [show ts ++ x :: y :: ys = (ts ++ [x, y]) ++ ys by simp,
                List.tail_append_of_ne_nil (by simp)] at this
              simpa using this
            rw [← hsplit, hu] at hF
            obtain ⟨s1, h1, h2, h3, h4⟩ := hF.jump hne (N := N) (by
              rw [hN, ← hsplit, hu]; simp)
            rw [← htail] at h3
            have hw : 1 + ts.length = (ts ++ [x, y]).tail.length := by simp; omega
            have h5 := h3.advance hw
            rw [hstep, shiftIfEscaped_jump hc hxe hy0 hmx hpx |> fun h => M.bind_of_ok (h.trans h1)]
            simp only [M.modify_bind]
            refine Post.of_same (h2.trans (same_end _ _ s1 (s1.end_ + (1 + ts.length)))) ?_
            refine ih ys ?_ ?_ _ _ _ _ _ _ h5 ?_ ?_
            · simp at hlen; omega
            · intro h; exact hx0 (by simp [h])
            · simp at hlen; omega
            · simp at hlen; simp [h4, hN]; omega
        · simp only [hxe, if_false]
          rw [hstep, M.bind_of_ok (shiftIfEscaped_none hc hxe hmx hpx)]
          simp only [M.modify_bind]
          refine Post.of_same (same_end _ _ s (s.end_ + (1 + ts.length))) ?_
          have h5 : Fld { s with end_ := s.end_ + (1 + ts.length) } pre (acc ++ (ts ++ [x])) xs T :=
            Fld.advance (by simpa [← hsplit] using hF) (by simp; omega)
          rw [List.append_assoc]
          refine ih xs (by omega) ?_ _ _ _ _ _ _ h5 (by omega) (by simp [hN]; omega)
          intro h; exact hx0 (by simp [h])


/-- the mismatched quote branch -/
theorem mismatch_post {s : Spl} {pre T : Bytes} {N rem : Nat} {b : Bool} (hb : s.begin_ = pre.length)
    (hN : N - rem = s.end_) (hb' : c.mode = .throw → c.multiline = false → b = false) :
    Post c N s pre T
      ((handleError c (msgMismatchedQuote s.end_) >>= fun _ =>
        (M.modify fun s => { s with data := s.data ++ [(0, s.begin_)] }) >>= fun _ =>
        M.modify fun s => { s with done := true }) s) (.stop (.mismatch rem b)) := by
  unfold Post
  have hte : c.mode = .throw →
      (End.mismatch rem b).throwError c.multiline N = some (msgMismatchedQuote (N - rem)) := by
    intro hm
    cases b with
    | false => simp [End.throwError, End.stringError]
    | true =>
      cases hml : c.multiline with
      | true => simp [End.throwError]
      | false => have := hb' hm hml; cases this
  simp only [End.stringError]
  by_cases hmo : c.mode = .throw
  · rw [hte hmo]
    refine Outcome.of_throw hmo ?_ (Frame.refl _ _ s) rfl fun _ => rfl
    simp [handleError, hmo, hN]
  · refine Outcome.of_flag (s' := { s with err := s.err.set c.mode (msgMismatchedQuote s.end_), data := s.data ++ [(0, s.begin_)], done := true }) hmo ?_ (Frame.of_mem rfl rfl rfl rfl) ?_ ?_
    · rcases hm : c.mode with _ | _ | _
      · simp [handleError, hm]
      · simp [handleError, hm]
      · exact absurd hm hmo
    · simp [hN]
    · simp [hb]

theorem readQuoted_spec {q : Byte} (hq : c.quote = some q) : ∀ (n : Nat) (r : Bytes), r.length < n → NUL ∉ r →
    ∀ (s : Spl) (pre acc T : Bytes) (f N : Nat), Fld s pre acc r T → r.length < f →
      N = s.end_ + r.length →
      Post c N s pre T (readQuoted c q d f s) (field c d.bytes .quoted acc r) := by
  have hq0 : q ≠ NUL := fun h => hc.nul_q (by rw [hq, h])
  intro n
  induction n with
  | zero => intro r h; omega
  | succ n ih =>
    intro r hrn hr0 s pre acc T f N hF hf hN
    have hbeg : s.begin_ = pre.length := hF.choose_spec.choose_spec.choose_spec.2.2.1
    obtain ⟨A, hA, hE⟩ := hF.mem_eq
    cases f with
    | zero => omega
    | succ f =>
    cases r with
    | nil =>
      rw [field]
      simp only [readQuoted, M.get_bind]
      rw [rd_bind _ (x := NUL) (A := A) (B := T) (by simpa using hA) hE]
      simp only [ne_eq, hq0.symm, not_false_eq_true, if_true, hc.nul_e, and_false, if_false]
      obtain ⟨g, s', h1, h2, h3, h4, h5, h6, h7, h8⟩ := hF.shift hN
      rw [M.bind_of_ok h1]
      simp only [M.modify_bind]
      unfold Post
      simp only [End.stringError, End.throwError]
      cases hml : c.multiline with
      | true =>
        simp only [if_true]
        refine Outcome.of_none (s' := { s' with unterminatedQuote := true, data := s'.data ++ [(0, s'.begin_)], done := true }) ?_ ?_ h2.err ?_
        · simp
        · exact ⟨h2.frame.1, h2.frame.2, h2.frame.3, h2.frame.4, h2.frame.5, h2.frame.6⟩
        · exact ⟨rfl, rfl, by simp [h7, h2.data], g, by simpa using h3, h7, h6, h5⟩
      | false =>
        simp only [Bool.false_eq_true, if_false]
        by_cases hmo : c.mode = .throw
        · refine Outcome.of_throw (s' := { s' with unterminatedQuote := true }) hmo ?_ ?_ h2.err (fun h => by rw [hml] at h; cases h)
          · simp [handleError, hmo]
          · exact ⟨h2.frame.1, h2.frame.2, h2.frame.3, h2.frame.4, h2.frame.5, h2.frame.6⟩
        · refine Outcome.of_flag (s' := { s' with unterminatedQuote := true, err := s'.err.set c.mode msgUnterminatedQuote, data := s'.data ++ [(0, s'.begin_)], done := true }) hmo ?_ ?_ ?_ ?_
          · rcases hm : c.mode with _ | _ | _
            · simp [handleError, hm]
            · simp [handleError, hm]
            · exact absurd hm hmo
          · exact ⟨h2.frame.1, h2.frame.2, h2.frame.3, h2.frame.4, h2.frame.5, h2.frame.6⟩
          · simp [h2.err]
          · exact ⟨rfl, rfl, by simp [h7, h2.data], g, by simpa using h3, h7, h6, h5⟩
    | cons x xs =>
      have hx0 : x ≠ NUL := fun h => hr0 (by simp [h])
      have hA' : s.mem = A ++ x :: (xs ++ NUL :: T) := by simpa using hA
      have hne : (c.quote.isSome || !c.escape.isEmpty) = true := by simp [hq]
      simp only [List.length_cons] at hrn hf hN
      rw [field.eq_def]
      simp only [hq, ne_eq, Option.some.injEq]
      simp only [readQuoted, M.get_bind]
      rw [rd_bind _ hA' hE]
      by_cases hxq : x = q
      · subst hxq
        simp only [ne_eq, not_true_eq_false, if_false]
        have hmX : s.mem = (A ++ [x]) ++ (xs ++ NUL :: T) := by simp [hA]
        have hpX : s.end_ + 1 = (A ++ [x]).length := by simp [hE]
        have hxs0 : NUL ∉ xs := fun h => hr0 (by simp [h])
        have hsplit := takeWhile_append_dropWhile' c.trimR xs
        have hlen := length_tw c.trimR xs
        have hqr : x ∉ c.trimR := hc.qr x hq
        have hqe : x ∉ c.escape := hc.qe x hq
        split
        · -- closing quote at the end of the line
          rename_i hdw
          rw [M.bind_of_ok (matchDelimiter_eol hc hmX hpX hdw)]
          simp only [Bool.false_eq_true, if_false, M.get_bind]
          have hb1 : ∃ b, rd (s.end_ + 1) s = .ok b s ∧ b ≠ x := by
            rw [hdw] at hsplit
            cases xs with
            | nil => exact ⟨NUL, rd_at (A := A ++ [x]) (B := T) (by simpa using hA) hpX, hq0.symm⟩
            | cons y ys =>
              refine ⟨y, rd_at (A := A ++ [x]) (B := ys ++ NUL :: T) (by simpa using hmX) hpX, ?_⟩
              rintro rfl
              have : y ∈ List.takeWhile (fun x => decide (x ∈ c.trimR)) (y :: ys) := by
                simp only [List.append_nil] at hsplit
                rw [hsplit]; simp
              exact hqr (mem_tw this)
          obtain ⟨b, hb, hbx⟩ := hb1
          rw [M.bind_of_ok hb, if_neg hbx]
          obtain ⟨g, s', h1, h2, h3, h4, h5, h6, h7, h8⟩ := hF.push (N := N) hN
          simp only [if_true]
          rw [M.bind_of_ok h1]
          refine Outcome.of_none (s' := { s' with done := true }) rfl ⟨h2.1, h2.2, h2.3, h2.4, h2.5, h2.6⟩ h3 ⟨g ++ x :: xs, ?_, h5, h7, rfl⟩
          simp [h4]
        · rename_i z zs hdw
          rw [hdw] at hsplit hlen
          generalize hts : xs.takeWhile (· ∈ c.trimR) = ts at *
          have htsR : ∀ y ∈ ts, y ∈ c.trimR := by
            intro y hy
            rw [← hts] at hy
            exact mem_tw hy
          have hz0 : NUL ∉ z :: zs := fun h => hxs0 (by rw [← hsplit]; exact List.mem_append_right _ h)
          cases hpre : d.bytes.isPrefixOf (z :: zs) with
          | true =>
            simp only [if_true]
            obtain ⟨g, s', h1, h2, h3, h4, h5, h6, h7, h8⟩ := hF.push (N := N) hN
            obtain ⟨t, ht⟩ := List.isPrefixOf_iff_prefix.mp hpre
            have hdrop : (z :: zs).drop d.bytes.length = t := by rw [← ht]; simp
            have htt := takeWhile_append_dropWhile' c.trimL t
            rw [M.bind_of_ok (matchDelimiter_delim hc hd0 hmX hpX hxs0 hdw hpre)]
            simp only [if_true, shiftPushAndStartNext]
            rw [M.bind_of_ok h1, hdrop, hts]
            refine ⟨{ s' with begin_ := s'.end_ + (ts.length + d.bytes.length +
                (t.takeWhile (· ∈ c.trimL)).length + 1) },
              g ++ [x] ++ ts ++ d.bytes ++ t.takeWhile (· ∈ c.trimL), rfl,
              ⟨h2.1, h2.2, h2.3, h2.4, h2.5, h2.6⟩, h3, ?_, h5, ?_, h7, h8⟩
            · simp only [afterDelim, hdrop, h4]
              rw [← hsplit, ← ht]
              generalize List.dropWhile (fun x => decide (x ∈ c.trimL)) t = t2 at *
              generalize List.takeWhile (fun x => decide (x ∈ c.trimL)) t = t1 at *
              subst htt
              simp
            · simp [h6]; omega
          | false =>
            simp only [Bool.false_eq_true, if_false]
            rw [M.bind_apply, matchDelimiter_other hc hd0 hmX hpX hxs0 hdw hpre, hts]
            have hmz : s.mem = (A ++ [x] ++ ts) ++ z :: (zs ++ NUL :: T) := by
              rw [hmX, ← hsplit]; simp
            have hpz : s.end_ + 1 + ts.length = (A ++ [x] ++ ts).length := by simp [hE]; omega
            obtain ⟨y, ys, hxs⟩ : ∃ y ys, xs = y :: ys := by
              rw [← hsplit]; cases ts <;> simp
            subst hxs
            simp only
            have hrd1 : rd (s.end_ + 1) s = .ok y s :=
              rd_at (A := A ++ [x]) (B := ys ++ NUL :: T) (by simpa using hmX) hpX
            have hy0 : y ≠ NUL := fun h => hxs0 (by simp [h])
            by_cases hze : z ∈ c.escape
            · have hzq : z ≠ x := fun h => hqe (h ▸ hze)
              have hyq : y ≠ x := by
                cases ts with
                | nil => simp at hsplit; rw [← hsplit.1]; exact hzq
                | cons t ts =>
                  simp at hsplit
                  rw [← hsplit.1]
                  intro h
                  exact hqr (h ▸ htsR t (by simp))
              rw [if_neg hyq]
              cases zs with
              | nil =>
                -- escape at the end of the line
                have hcond : ¬ (y ∈ c.escape ∧ ys.head? = some x) := by
                  rintro ⟨hye, hh⟩
                  cases ts with
                  | nil => simp at hsplit; rw [hsplit.2] at hh; simp at hh
                  | cons t ts =>
                    simp at hsplit
                    rw [hsplit.1] at htsR
                    exact hc.er y hye (htsR y (by simp))
                rw [if_neg hcond, if_pos hze, if_pos rfl]
                have he := shiftIfEscaped_eol (s := s) hc hze hmz hpz
                have hgo : ∀ e : ErrSt,
                    (rd (s.end_ + 1) >>= fun b1 =>
                      if b1 = x then (do
                          shiftAndJumpEscape c
                          M.modify fun s => { s with end_ := s.end_ + 1 }
                          readQuoted c x d f)
                      else (do
                        if (1 + ts.length) = 0 then shiftAndPush
                        else
                          handleError c (msgMismatchedQuote s.end_)
                          M.modify fun s => { s with data := s.data ++ [(0, s.begin_)] }
                        M.modify fun s => { s with done := true })) { s with done := true, err := e } =
                    ((handleError c (msgMismatchedQuote s.end_) >>= fun _ =>
                      (M.modify fun s => { s with data := s.data ++ [(0, s.begin_)] }) >>= fun _ =>
                      M.modify fun s => { s with done := true }) { s with done := true, err := e }) := by
                  intro e
                  rw [M.bind_of_ok (rd_at (A := A ++ [x]) (B := ys ++ NUL :: T) (x := y) (by simpa using hmX) hpX), if_neg hyq, if_neg (by omega)]
                cases hml : c.multiline with
                | true =>
                  rw [hml] at he
                  rw [M.bind_of_ok (by simpa using he)]
                  simp only [M.pure_apply, Bool.false_eq_true, if_false, M.get_bind]
                  rw [hgo s.err]
                  have := mismatch_post (c := c) (d := d) (s := { s with done := true }) (pre := pre) (T := T) (N := N)
                    (rem := ys.length + 1 + 1) (b := true) hc hd0 hbeg (by simp at hN ⊢; omega) (by simp [hml])
                  unfold Post at this ⊢
                  exact this.imp rfl rfl (fun x hx => ⟨hx.1, hx.2, hx.3, hx.4, hx.5, hx.6⟩) (fun x _ hx => hx)
                | false =>
                  simp only [hml, Bool.false_eq_true, if_false] at he ⊢
                  by_cases hmo : c.mode = .throw
                  · rw [if_pos hmo] at he
                    rw [M.bind_of_exc he]
                    unfold Post
                    simp only [End.throwError, hml, Bool.false_eq_true, if_false]
                    exact Outcome.of_throw hmo rfl (Frame.refl _ _ _) rfl fun _ => rfl
                  · rw [if_neg hmo] at he
                    rw [M.bind_of_ok he]
                    simp only [M.pure_apply, Bool.false_eq_true, if_false, M.get_bind]
                    rw [hgo]
                    have := mismatch_post (c := c) (d := d) (s := { s with done := true, err := s.err.set c.mode msgUnterminatedEscape }) (pre := pre) (T := T) (N := N)
                      (rem := ys.length + 1 + 1) (b := true) hc hd0 hbeg (by simp at hN ⊢; omega) (by simp [hmo])
                    unfold Post Outcome at this ⊢
                    simp only [hmo, if_false] at this ⊢
                    obtain ⟨s2, k1, k2, k3, k4⟩ := this
                    refine ⟨s2, k1, ⟨k2.1, k2.2, k2.3, k2.4, k2.5, k2.6⟩, ?_, k4⟩
                    rw [k3]
                    simp only [End.stringError]
                    rcases hm : c.mode with _ | _ | _ <;> simp [ErrSt.set]
              | cons w ws =>
                have hw0 : w ≠ NUL := fun h => hz0 (by simp [h])
                obtain ⟨s1, h1, h2, h3, h4⟩ := hF.jump hne (N := N) (by simp at hN ⊢; omega)
                rw [M.bind_of_ok ((shiftIfEscaped_jump hc hze hw0 hmz hpz).trans h1)]
                simp only [M.pure_apply, Bool.false_eq_true, if_false, M.get_bind]
                -- the byte behind `y`
                obtain ⟨u, us, hus⟩ : ∃ u us, ys = u :: us := by
                  cases ts with
                  | nil => simp at hsplit; exact ⟨w, ws, hsplit.2.symm⟩
                  | cons t ts =>
                    simp at hsplit
                    rw [← hsplit.2]; cases ts <;> simp
                subst hus
                obtain ⟨A1, hA1, hE1⟩ := h3.mem_eq
                have hrd2 : rd (s1.end_ + 1) s1 = .ok u s1 :=
                  rd_at (A := A1 ++ [y]) (B := us ++ NUL :: T) (by simp [hA1]) (by simp [hE1])
                rw [M.bind_of_ok hrd2]
                have hiff : (y ∈ c.escape ∧ (u :: us).head? = some x) ↔ u = x := by
                  simp only [List.head?_cons, Option.some.injEq]
                  constructor
                  · exact fun h => h.2
                  · intro hu
                    refine ⟨?_, hu⟩
                    cases ts with
                    | nil => simp at hsplit; rw [← hsplit.1]; exact hze
                    | cons t ts =>
                      exfalso
                      simp at hsplit
                      cases ts with
                      | nil => simp at hsplit; exact hzq (hsplit.2.1.trans hu)
                      | cons t' ts =>
                        simp at hsplit
                        exact hqr (hu ▸ hsplit.2.1 ▸ htsR t' (by simp))
                by_cases hux : u = x
                · rw [if_pos (hiff.mpr hux), if_pos hux]
                  obtain ⟨s2, k1, k2, k3, k4⟩ := h3.jump hne (N := N) (by simp at hN ⊢; omega)
                  rw [M.bind_of_ok k1]
                  simp only [M.modify_bind, List.tail_cons]
                  have k5 : Fld { s2 with end_ := s2.end_ + 1 } pre (acc ++ [x]) us T :=
                    Fld.advance (x := [x]) (by simpa [hux] using k3) rfl
                  refine Post.of_same ((h2.trans k2).trans (same_end _ _ s2 (s2.end_ + 1))) ?_
                  simp at hrn hf hN
                  refine ih us (by omega) ?_ _ _ _ _ _ _ k5 (by omega) (by simp; omega)
                  intro h; exact hxs0 (by simp [h])
                · rw [if_neg (fun h => hux (hiff.mp h)), if_neg hux, if_pos hze, if_neg (by omega)]
                  refine Post.of_same h2 ?_
                  refine mismatch_post (b := false) (d := d) hc hd0 ?_ ?_ (by simp)
                  · exact h3.choose_spec.choose_spec.choose_spec.2.2.1
                  · simp at hN ⊢; omega
            · rw [M.bind_of_ok (shiftIfEscaped_none hc hze hmz hpz)]
              simp only [M.pure_apply, Bool.false_eq_true, if_false, M.get_bind]
              rw [M.bind_of_ok hrd1]
              by_cases hyx : y = x
              · rw [if_pos hyx, if_pos hyx]
                obtain ⟨s2, k1, k2, k3, k4⟩ := hF.jump hne (N := N) (by simp at hN ⊢; omega)
                rw [M.bind_of_ok k1]
                simp only [M.modify_bind]
                have k5 : Fld { s2 with end_ := s2.end_ + 1 } pre (acc ++ [x]) ys T :=
                  Fld.advance (x := [x]) (by simpa [hyx] using k3) rfl
                refine Post.of_same (k2.trans (same_end _ _ s2 (s2.end_ + 1))) ?_
                simp at hrn hf hN
                refine ih ys (by omega) ?_ _ _ _ _ _ _ k5 (by omega) (by simp; omega)
                intro h; exact hxs0 (by simp [h])
              · have hcond : ¬ (y ∈ c.escape ∧ ys.head? = some x) := by
                  rintro ⟨hye, hh⟩
                  cases ts with
                  | nil => simp at hsplit; rw [← hsplit.1] at hye; exact hze hye
                  | cons t ts =>
                    simp at hsplit
                    rw [hsplit.1] at htsR
                    exact hc.er y hye (htsR y (by simp))
                rw [if_neg hyx, if_neg hyx, if_neg hcond, if_neg hze, if_neg (by omega)]
                exact mismatch_post (b := false) (d := d) hc hd0 hbeg (by simp at hN ⊢; omega) (by simp)
      · simp only [ne_eq, hxq, not_false_eq_true, if_true, Ne.symm hxq]
        by_cases hxe : x ∈ c.escape
        · have hene : c.escape ≠ [] := fun h => by rw [h] at hxe; cases hxe
          simp only [hxe, if_true, hene, not_false_eq_true, and_self]
          cases xs with
          | nil =>
            simp only
            rw [rd_bind _ (x := NUL) (A := A ++ [x]) (B := T) (by simp [hA]) (by simp [hE])]
            simp only [if_true]
            unfold Post
            simp only [End.stringError, End.throwError]
            cases hml : c.multiline with
            | true =>
              exact Outcome.of_none (s' := { s with done := true }) (by simp)
                (Frame.of_mem rfl rfl rfl rfl) rfl ⟨rfl, rfl, rfl⟩
            | false =>
              simp only [Bool.false_eq_true, if_false]
              by_cases hmo : c.mode = .throw
              · exact Outcome.of_throw (s' := s) hmo (by simp [handleError, hmo]) (Frame.refl _ _ _) rfl fun _ => rfl
              · refine Outcome.of_flag (s' := { s with err := s.err.set c.mode msgUnterminatedEscape, done := true }) hmo ?_
                  (Frame.of_mem rfl rfl rfl rfl) rfl ⟨rfl, rfl, rfl⟩
                rcases hm : c.mode with _ | _ | _
                · simp [handleError, hm]
                · simp [handleError, hm]
                · exact absurd hm hmo
          | cons y ys =>
            simp only
            have hy0 : y ≠ NUL := fun h => hr0 (by simp [h])
            rw [rd_bind _ (x := y) (A := A ++ [x]) (B := ys ++ NUL :: T) (by simp [hA]) (by simp [hE])]
            rw [if_neg hy0]
            obtain ⟨s2, k1, k2, k3, k4⟩ := hF.jump hne (N := N) (by simp at hN ⊢; omega)
            rw [M.bind_of_ok k1]
            simp only [M.modify_bind]
            have k5 : Fld { s2 with end_ := s2.end_ + 1 } pre (acc ++ [y]) ys T :=
              Fld.advance (x := [y]) (by simpa using k3) rfl
            refine Post.of_same (k2.trans (same_end _ _ s2 (s2.end_ + 1))) ?_
            simp at hrn hf hN
            refine ih ys (by omega) ?_ _ _ _ _ _ _ k5 (by omega) (by simp; omega)
            intro h; exact hr0 (by simp [h])
        · simp only [hxe, if_false, and_false, hx0, M.modify_bind]
          have k5 : Fld { s with end_ := s.end_ + 1 } pre (acc ++ [x]) xs T :=
            Fld.advance (x := [x]) (by simpa using hF) rfl
          refine Post.of_same (same_end _ _ s (s.end_ + 1)) ?_
          refine ih xs (by omega) ?_ _ _ _ _ _ _ k5 (by omega) (by simp; omega)
          intro h; exact hr0 (by simp [h])

end fieldspec
end Ssp.Spl
