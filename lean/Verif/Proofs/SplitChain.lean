import Verif.Proofs.SplitApi
/-!
# Splitting in pieces
-/
namespace Ssp
open Spec Spl

/-- What is known about the splitter after the text `text` has been processed. -/
def Known (c : Cfg) (delim text : Bytes) (s : Spl) : Prop :=
  s.resplitting = false ∧
  (∃ N T o, Left c 0 N T [] (decodeRow c delim text).1 (decodeRow c delim text).2 o false s) ∧
  (s.err.valid c.mode = (c.mode = .throw || (decodeRow c delim text).2.stringError c.multiline 0 == none : Bool))

theorem stringError_none_iff (e : End) (ml : Bool) (n m : Nat) :
    e.stringError ml n = none ↔ e.stringError ml m = none := by
  cases e <;> simp [End.stringError]

theorem throwError_none_iff (e : End) (ml : Bool) (n m : Nat) :
    e.throwError ml n = none ↔ e.stringError ml m = none := by
  cases e with
  | mismatch r b => cases b <;> cases ml <;> simp [End.stringError, End.throwError]
  | _ => simp [End.stringError, End.throwError]

theorem loopPost_cases {c : Cfg} {lo N : Nat} {T : Bytes} {s : Spl} {res : Res Spl Unit}
    {x : List Bytes × End} {o : Nat} (h : LoopPost c lo N T s res x o) (hv : s.err.valid c.mode = true) :
    (∃ s', res = .ok () s' ∧ Frame lo N s s' ∧ Left c lo N T s.data x.1 x.2 o s.unterminatedQuote s' ∧
      s'.err.valid c.mode = (c.mode = .throw || x.2.stringError c.multiline 0 == none : Bool) ∧
      (c.mode = .throw → x.2.stringError c.multiline 0 = none)) ∨
    (∃ m s', res = .exc m s' ∧ c.mode = .throw ∧ x.2.stringError c.multiline 0 ≠ none) := by
  unfold LoopPost Outcome at h
  by_cases hm : c.mode = .throw
  · simp only [hm, if_true] at h
    cases ht : x.2.throwError c.multiline N with
    | some m =>
      rw [ht] at h
      obtain ⟨s', h1, _⟩ := h
      refine .inr ⟨m, s', h1, hm, ?_⟩
      intro h2
      rw [(throwError_none_iff _ _ N 0).mpr h2] at ht
      cases ht
    | none =>
      rw [ht] at h
      obtain ⟨s', h1, h2, h3, h4⟩ := h
      exact .inl ⟨s', h1, h2, h4, by simp [hm, ErrSt.valid], fun _ => (throwError_none_iff _ _ N 0).mp ht⟩
  · simp only [hm, if_false] at h
    obtain ⟨s', h1, h2, h3, h4⟩ := h
    refine .inl ⟨s', h1, h2, h4, ?_, fun h => absurd h hm⟩
    cases hs : x.2.stringError c.multiline N with
    | none =>
      rw [hs] at h3
      rw [h3, hv, (stringError_none_iff _ _ N 0).mp hs]
      simp
    | some m =>
      rw [hs] at h3
      rw [h3]
      have : x.2.stringError c.multiline 0 ≠ none := fun h => by
        rw [(stringError_none_iff _ _ 0 N).mp h] at hs; cases hs
      rw [ErrSt.valid_set hm (stringError_ne_nil hs)]
      cases h0 : x.2.stringError c.multiline 0 with
      | none => exact absurd h0 this
      | some _ => simp [hm]

theorem left_lo {c : Cfg} {lo N N' : Nat} {T : Bytes} {data0 ds0 : List (Nat × Nat)} {fs0 fs : List Bytes} {e : End}
    {s' : Spl} {o : Nat} (hR : Ranges s'.mem 0 lo ds0 fs0) (h : Left c lo N T ds0 fs e o false s') (hd : data0 = [])
    (hN : N = N') : Left c 0 N' T data0 (fs0 ++ fs) e o false s' := by
  subst hd hN
  obtain ⟨l0, hl⟩ := h
  refine ⟨l0, ?_⟩
  cases e with
  | openQuote a =>
    obtain ⟨ds, P, q, G', l1, l2, l3, l4, l5, l6⟩ := hl
    exact ⟨ds0 ++ ds, P, q, G', hR.append (Nat.le_refl _) l1, l2, l3, by simp [l4], l5, l6⟩
  | mismatch rem b =>
    obtain ⟨ds, p, l1, l2, l3, l4⟩ := hl
    exact ⟨ds0 ++ ds, p, hR.append (Nat.le_refl _) l1, by simp [l2], l3, l4⟩
  | eol =>
    obtain ⟨ds, l1, l2, l3⟩ := hl
    exact ⟨ds0 ++ ds, hR.append (Nat.le_refl _) l1, by simp [l2], l3⟩
  | eolEscape =>
    obtain ⟨ds, l1, l2, l3⟩ := hl
    exact ⟨ds0 ++ ds, hR.append (Nat.le_refl _) l1, by simp [l2], l3⟩
  | openEscape =>
    obtain ⟨ds, l1, l2, l3⟩ := hl
    exact ⟨ds0 ++ ds, hR.append (Nat.le_refl _) l1, by simp [l2], l3⟩

theorem decodeRow_resume {c : Cfg} (hc : c.WF) {d : Bytes} {r r2 a : Bytes} (hd : Joint c d r2) {fs : List Bytes}
    (h : decodeRow c d r = (fs, .openQuote a)) :
    decodeRow c d (r ++ r2) = (fs ++ (decode c d .quoted a r2).1, (decode c d .quoted a r2).2) := by
  cases hr : r.dropWhile (· ∈ c.trimL) with
  | nil =>
    simp only [decodeRow, hr, decodeFields, start] at h
    rw [decode_last (f := []) (e := .eol) (by rw [field_normal_eq]; rfl)] at h
    cases h
  | cons x xs =>
    have hst : start c (x :: (xs ++ r2)) = ((start c (x :: xs)).1, (start c (x :: xs)).2 ++ r2) := by
      simp only [start]; split <;> rfl
    rw [decodeRow, (dropWhile_append_cons hr).1, decodeFields, hst]
    rw [decodeRow, hr, decodeFields] at h
    exact decode_resume hc hd _ _ (Nat.lt_succ_self _) _ _ _ _ h

theorem resplit_of_not_multiline {c : Cfg} {n : Nat} {d : Bytes} {s : Spl}
    (h : c.quote = none ∨ c.multiline = false) :
    resplit c n d s = handleError c msgInvalidResplit s := by
  rcases h with h | h <;> simp [resplit, h]

/-- Continuing a split of which `text` has been processed. -/
theorem resplit_known {c : Cfg} (hc : c.WF) {delim text more T : Bytes} {s : Spl} {size : Nat}
    (hd : Joint c delim more) (hd0 : NUL ∉ delim) (hml : c.multiline = true)
    (hk : Known c delim text s) (hu : s.unterminatedQuote = true) (hn : NUL ∉ more)
    (hsz : s.end_ - s.escaped + more.length ≤ size) :
    (∃ s', resplit c size delim (s.extend more T) = .ok () s' ∧ Known c delim (text ++ more) s' ∧
      s'.gen = s.gen + 1 ∧ s'.lineGen = s.gen + 1 ∧
      s'.mem.length = s.end_ - s.escaped + more.length + (NUL :: T).length ∧
      s'.mem.drop (s.end_ - s.escaped + more.length) = NUL :: T ∧
      (c.mode = .throw → (decodeRow c delim (text ++ more)).2.stringError c.multiline 0 = none)) ∨
    (∃ m s', resplit c size delim (s.extend more T) = .exc m s' ∧ c.mode = .throw ∧
      (decodeRow c delim (text ++ more)).2.stringError c.multiline 0 ≠ none) := by
  obtain ⟨k1, ⟨N, T0, o, k2⟩, k3⟩ := hk
  generalize hdr : decodeRow c delim text = dr at k2 k3
  obtain ⟨fs, e⟩ := dr
  obtain ⟨l0, hl⟩ := k2
  cases e with
  | openQuote a =>
    obtain ⟨ds, P, q, G, l1, l2, l3, l4, l5, l6, l7, l8, _⟩ := hl
    have hsub : s.end_ - s.escaped = P.length + 1 + a.length := by omega
    have hm : (s.extend more T).mem = P ++ (q :: (a ++ (more ++ NUL :: T))) := by
      simp only [extend, hsub, l3]
      rw [show P ++ q :: (a ++ (G ++ NUL :: T0)) = (P ++ q :: a) ++ (G ++ NUL :: T0) by simp,
        List.take_append_of_le_length (by simp; omega), List.take_of_length_le (by simp; omega)]
      simp
    have hpost := resplit_spec (delim := delim) (newSize := size) hc hd.ne hd0 hn l2 hml hm
      (ds := ds) (by simpa [extend] using l4) (by simpa [extend] using hu)
      (by simp [extend]; omega) (by simpa [extend] using k1) (by omega)
    have hv : (restart0 c (s.extend more T) ds P.length (P.length + 1 + a.length)).err.valid c.mode = true :=
      ErrSt.valid_clear _ _
    rw [decodeRow_resume hc hd hdr]
    rcases loopPost_cases hpost hv with ⟨s', e1, e2, e3, e4, e5⟩ | ⟨m, s', e1, e2, e3⟩
    · refine .inl ⟨s', e1, ?_, e2.gen, e2.lineGen, ?_, ?_, e5⟩
      · unfold Known
        rw [decodeRow_resume hc hd hdr]
        refine ⟨e2.resplitting.trans k1, ⟨_, T, _, left_lo ?_ e3 rfl rfl⟩, e4⟩
        have hpre := e2.pre
        have hpre' : s'.mem.take P.length = s.mem.take P.length := by
          rw [hpre]
          show (s.extend more T).mem.take P.length = _
          rw [hm, l3]; simp
        exact Ranges.congr hpre' l1 (Nat.le_refl _)
      · rw [e2.len]
        show (s.extend more T).mem.length = _
        rw [hm]; simp; omega
      · have := e2.suf
        rw [hsub, this]
        show (s.extend more T).mem.drop _ = _
        rw [hm, show P ++ q :: (a ++ (more ++ NUL :: T)) = (P ++ q :: (a ++ more)) ++ NUL :: T by simp]
        exact List.drop_left' (by simp; omega)
    · exact .inr ⟨m, s', e1, e2, e3⟩
  | mismatch rem b => obtain ⟨ds, p, _, _, _, l⟩ := hl; rw [l] at hu; cases hu
  | eol => obtain ⟨ds, _, _, l⟩ := hl; rw [l] at hu; cases hu
  | eolEscape => obtain ⟨ds, _, _, l⟩ := hl; rw [l] at hu; cases hu
  | openEscape => obtain ⟨ds, _, _, l⟩ := hl; rw [l] at hu; cases hu

/-- A split. -/
theorem split_known {c : Cfg} (hc : c.WF) {delim line T : Bytes} {s : Spl}
    (hd : delim ≠ []) (hd0 : NUL ∉ delim) (hs : Holds s line T) :
    (∃ s', split c delim s = .ok () s' ∧ Known c delim line s' ∧ s'.gen = s.gen ∧ s'.lineGen = s.gen ∧
      s'.mem.length = s.mem.length ∧ s'.mem.drop line.length = NUL :: T ∧
      (c.mode = .throw → (decodeRow c delim line).2.stringError c.multiline 0 = none)) ∨
    (∃ m s', split c delim s = .exc m s' ∧ c.mode = .throw ∧
      (decodeRow c delim line).2.stringError c.multiline 0 ≠ none) := by
  have hpost := split_post hc hd hd0 hs
  rcases loopPost_cases hpost (ErrSt.valid_clear _ _) with ⟨s', e1, e2, e3, e4, e5⟩ | ⟨m, s', e1, e2, e3⟩
  · refine .inl ⟨s', e1, ⟨e2.resplitting.trans hs.idle, ⟨_, T, _, e3⟩, e4⟩, e2.gen, e2.lineGen, e2.len, ?_, e5⟩
    rw [e2.suf]
    show s.mem.drop _ = _
    rw [hs.mem]; simp
  · exact .inr ⟨m, s', e1, e2, e3⟩

theorem Known.uq_iff {c : Cfg} {delim text : Bytes} {s : Spl} (h : Known c delim text s) :
    s.unterminatedQuote = true ↔ ∃ a, (decodeRow c delim text).2 = .openQuote a := by
  obtain ⟨_, ⟨N, T, _, _, hl⟩, _⟩ := h
  cases he : (decodeRow c delim text).2 with
  | openQuote a => rw [he] at hl; obtain ⟨_, _, _, _, _, _, _, _, l, _⟩ := hl; simp [l]
  | mismatch rem b => rw [he] at hl; obtain ⟨_, _, _, _, _, l⟩ := hl; simp [l]
  | eol => rw [he] at hl; obtain ⟨_, _, _, l⟩ := hl; simp [l]
  | eolEscape => rw [he] at hl; obtain ⟨_, _, _, l⟩ := hl; simp [l]
  | openEscape => rw [he] at hl; obtain ⟨_, _, _, l⟩ := hl; simp [l]

/-- When no quote is open and no quote is mismatched the columns are the decoded fields. -/
theorem Known.columns {c : Cfg} {delim text : Bytes} {s : Spl} (h : Known c delim text s)
    (hu : s.unterminatedQuote = false) (hm : ∀ r b, (decodeRow c delim text).2 ≠ .mismatch r b) :
    s.columns = (decodeRow c delim text).1 := by
  obtain ⟨_, ⟨N, T, _, _, hl⟩, _⟩ := h
  cases he : (decodeRow c delim text).2 with
  | openQuote a => rw [he] at hl; obtain ⟨_, _, _, _, _, _, _, _, l, _⟩ := hl; rw [l] at hu; cases hu
  | mismatch rem b => exact absurd he (hm _ _)
  | eol => rw [he] at hl; obtain ⟨_, h1, h2, l⟩ := hl; rw [Spl.columns, h2]; exact h1.columns
  | eolEscape => rw [he] at hl; obtain ⟨_, h1, h2, l⟩ := hl; rw [Spl.columns, h2]; exact h1.columns
  | openEscape => rw [he] at hl; obtain ⟨_, h1, h2, l⟩ := hl; rw [Spl.columns, h2]; exact h1.columns

/-- Every chain of calls ends like the decoding of the whole text. -/
theorem chain_known {c : Cfg} (hc : c.WF) {delim : Bytes} (hd : delim ≠ []) (hd0 : NUL ∉ delim)
    (hml : c.multiline = true) {text : Bytes} {res : Res Spl Unit} (h : Chain c delim text res) :
    NUL ∉ text ∧
    ((∃ s', res = .ok () s' ∧ Known c delim text s' ∧
        (c.mode = .throw → (decodeRow c delim text).2.stringError c.multiline 0 = none)) ∨
    (∃ m s', res = .exc m s' ∧ c.mode = .throw ∧
      (decodeRow c delim text).2.stringError c.multiline 0 ≠ none)) := by
  induction h with
  | first hs =>
    refine ⟨hs.nul, ?_⟩
    rcases split_known hc hd hd0 hs with ⟨s', e1, e2, _, _, _, _, e3⟩ | h
    · exact .inl ⟨s', e1, e2, e3⟩
    · exact .inr h
  | @more text more T s size _ hu hn hj hsz ih =>
    obtain ⟨hnt, ih⟩ := ih
    refine ⟨by simp [hnt, hn], ?_⟩
    rcases ih with ⟨s', e1, hk, _⟩ | ⟨m, s', e1, _⟩
    · cases e1
      rcases resplit_known hc (T := T) hj hd0 hml hk hu hn hsz with ⟨s', e1, e2, _, _, _, _, e3⟩ | h
      · exact .inl ⟨s', e1, e2, e3⟩
      · exact .inr h
    · cases e1

end Ssp
