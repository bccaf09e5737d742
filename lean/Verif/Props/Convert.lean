import Verif.Proofs.ConvertLine
import Verif.Proofs.DecodeCongr
import Verif.Props.Extract
import Verif.Props.Split
/-!
# Properties of the converter: C19 - C24, C50, and the converter's part of C03 and C18
-/
namespace Ssp
open Spec

/-- The situation of all the following theorems: a valid setup, a usable delimiter, and a converter which is
given the NUL terminated `line` (followed by arbitrary bytes `T`) and may have a column selection. -/
structure Given (c : Cfg) (delim line T : Bytes) (s : Conv) : Prop where
  wf : c.WF
  delim_ne : delim ≠ []
  delim_nul : NUL ∉ delim
  holds : Holds s.spl line T
  sel : s.SelOk

/-- The numbers of columns and of requested types fit together. -/
def Fits (rs : List Req) (sel : List Nat) (ncols : Nat) (cols : List Bytes) : Prop :=
  if sel = [] then rs.length = cols.length else rs.length = sel.length ∧ cols.length = ncols

/-- What converting a non-empty line is, given what splitting it is. -/
theorem line_of_accepts {c : Cfg} {delim line T : Bytes} {s : Spl} {cols : List Bytes} (hc : c.WF) (hd : delim ≠ [])
    (hd0 : NUL ∉ delim) (hs : Holds s line T) (hl : line ≠ []) (h : Accepts c (Spl.split c delim s) cols) :
    splitRes c delim line = .ok cols ∧ Closed c delim line := by
  obtain ⟨s', h1, h2, h3, h4⟩ := h
  have := split_full hc hd hd0 hs
  simp only [splitRes, hl, if_false]
  cases hx : endError c line.length (decodeRow c delim line).2 with
  | none =>
    rw [hx] at this
    obtain ⟨s1, e1, _, _, e4, _, e6⟩ := this
    rw [h1] at e1; cases e1
    have ho : (decodeRow c delim line).2.isOpenQuote = false := by
      cases he : (decodeRow c delim line).2 with
      | openQuote a => have := e4.uq_iff.mpr ⟨a, he⟩; rw [h4] at this; cases this
      | _ => rfl
    exact ⟨by rw [← e6 ho, h3], fun _ => ho⟩
  | some m =>
    rw [hx] at this
    obtain ⟨s1, _, e⟩ := this
    split at e
    · rw [h1] at e; cases e.1
    · rename_i hm
      rw [h1] at e
      obtain ⟨e1, e2, _⟩ := e
      cases e1
      rw [e2, ErrSt.valid_set hm (endError_ne_nil hx)] at h2
      cases h2

theorem yields_unique {c : Cfg} {r : Res Conv (List Val)} {vs ws : List Val} (h : Yields c r vs) (h' : Yields c r ws) :
    vs = ws := by
  obtain ⟨s, h, _⟩ := h
  obtain ⟨s', h', _⟩ := h'
  rw [h] at h'; cases h'; rfl

theorem fails_not_yields {c : Cfg} {r : Res Conv (List Val)} {vs : List Val} {m : Bytes} (h : Fails c r m) :
    ¬ Yields c r vs := by
  rintro ⟨s, h1, h2⟩
  unfold Fails at h
  cases hm : c.mode with
  | throw => rw [hm] at h; obtain ⟨s', h⟩ := h; rw [h] at h1; cases h1
  | string => rw [hm] at h; obtain ⟨vs, s', h, h3, _⟩ := h; rw [h] at h1; cases h1; rw [h3] at h2; cases h2
  | bool => rw [hm] at h; obtain ⟨vs, s', h, h3⟩ := h; rw [h] at h1; cases h1; rw [h3] at h2; cases h2

section
variable {c : Cfg} {delim line T : Bytes} {s : Conv} (g : Given c delim line T s)
include g

theorem line_result {rs : List Req} (hcl : Closed c delim line) (hst : line = [] → s.spl.err.valid c.mode = true) :
    match Conv.lineRes c delim rs s.mappings s.ncols line with
    | .ok vs => Yields c (Conv.convertLine c rs delim s) vs
    | .error m => Fails c (Conv.convertLine c rs delim s) m :=
  Conv.convertLine_spec g.wf g.delim_ne g.delim_nul g.holds g.sel hcl hst

theorem line_result_accepts {rs : List Req} {cols : List Bytes} (hl : line ≠ [])
    (h : Accepts c (Spl.split c delim s.spl) cols) :
    match rowResult rs s.mappings s.ncols cols with
    | .ok vs => Yields c (Conv.convertLine c rs delim s) vs
    | .error m => Fails c (Conv.convertLine c rs delim s) m := by
  obtain ⟨h1, h2⟩ := line_of_accepts g.wf g.delim_ne g.delim_nul g.holds hl h
  have := line_result g (rs := rs) h2 (fun h => absurd h hl)
  simpa only [Conv.lineRes, h1] using this

/-- C19: a row with the wrong number of columns is never accepted; the error says how many were expected and
found ... -/
theorem C19_wrong_number_of_columns {rs : List Req} {cols : List Bytes} (hl : line ≠ [])
    (h : Accepts c (Spl.split c delim s.spl) cols) (hsel : s.mappings = []) (hn : rs.length ≠ cols.length) :
    Fails c (Conv.convertLine c rs delim s)
      (bs "invalid number of columns, expected: " ++ dec rs.length ++ bs ", got: " ++ dec cols.length) := by
  have := line_result_accepts g (rs := rs) hl h
  simpa [rowResult, hsel, hn, Conv.msgNumberOfColumns] using this

/-- C19: ... with selected fields the row must have as many columns as the header ... -/
theorem C19_wrong_number_of_columns_selected {rs : List Req} {cols : List Bytes} (hl : line ≠ [])
    (h : Accepts c (Spl.split c delim s.spl) cols) (hsel : s.mappings ≠ []) (ha : rs.length = s.mappings.length)
    (hn : cols.length ≠ s.ncols) :
    Fails c (Conv.convertLine c rs delim s)
      (bs "invalid number of columns, expected: " ++ dec s.ncols ++ bs ", got: " ++ dec cols.length) := by
  have := line_result_accepts g (rs := rs) hl h
  simpa [rowResult, hsel, ha, hn, Conv.msgNumberOfColumns] using this

/-- C19: ... and as many types must be requested as fields are selected. -/
theorem C19_wrong_number_of_arguments {rs : List Req} {cols : List Bytes} (hl : line ≠ [])
    (h : Accepts c (Spl.split c delim s.spl) cols) (hsel : s.mappings ≠ []) (ha : rs.length ≠ s.mappings.length) :
    Fails c (Conv.convertLine c rs delim s)
      (bs "number of arguments does not match mapping, expected: " ++ dec s.mappings.length ++ bs ", got: " ++
        dec rs.length) := by
  have := line_result_accepts g (rs := rs) hl h
  simpa [rowResult, hsel, ha, Conv.msgIncompatibleMapping] using this

/-- C19: the empty line has no columns: it is never accepted (whatever error an earlier call left behind). -/
theorem C19_empty_line {rs : List Req} (hl : line = []) (hr : rs ≠ []) (vs : List Val) (hcl : Closed c delim line) :
    ¬ Yields c (Conv.convertLine c rs delim s) vs := by
  subst hl
  by_cases hst : s.spl.err.valid c.mode = true
  · have := line_result g (rs := rs) hcl (fun _ => hst)
    revert this
    simp only [Conv.lineRes, splitRes, if_true]
    cases hrr : rowResult rs s.mappings s.ncols [] with
    | error m => exact fun h => fails_not_yields h
    | ok ws =>
      exfalso
      unfold rowResult at hrr
      split at hrr
      · split at hrr
        · cases hrr
        · rename_i h1; simp at h1; exact hr h1
      · rename_i hm
        split at hrr
        · cases hrr
        · split at hrr
          · cases hrr
          · rename_i h1
            obtain ⟨x, xs, hx⟩ := List.exists_cons_of_ne_nil hm
            have := g.sel x (by rw [hx]; simp)
            simp at h1; omega
  · rintro ⟨s', h1, h2⟩
    unfold Conv.convertLine at h1
    rw [M.bind_of_ok (Conv.split_nil g.holds)] at h1
    simp only [M.get_bind, hst, Bool.false_eq_true, if_false, Conv.handleErrorBadSplit, M.modify_bind, M.pure_apply] at h1
    cases h1
    revert h2 hst
    cases hm : c.mode <;> simp [Conv.valid, ErrSt.valid, hm]

/-- C20: `convert` is valid iff the numbers fit and every requested column converts and passes its
restriction, and then the returned values are those conversions, in the order of the non-void requested types. -/
theorem C20_valid_iff {rs : List Req} {cols : List Bytes} {vs : List Val} (hl : line ≠ [])
    (h : Accepts c (Spl.split c delim s.spl) cols) :
    Yields c (Conv.convertLine c rs delim s) vs ↔
      Fits rs s.mappings s.ncols cols ∧ ∃ ss, Selects s.mappings cols ss ∧ RowIs rs ss vs := by
  have key := line_result_accepts g (rs := rs) hl h
  unfold rowResult at key
  unfold Fits
  by_cases hm : s.mappings = []
  · simp only [hm, if_true] at key ⊢
    by_cases hn : rs.length = cols.length
    · simp only [hn, ne_eq, not_true_eq_false, if_false, true_and] at key ⊢
      constructor
      · intro hy
        cases hr : rowCols rs 0 cols with
        | ok ws =>
          rw [hr] at key
          cases yields_unique key hy
          exact ⟨cols, .all, (rowCols_ok hn).mp hr⟩
        | error m => rw [hr] at key; exact absurd hy (fails_not_yields key)
      · rintro ⟨ss, h1, h2⟩
        cases h1 with
        | all => rw [(rowCols_ok hn).mpr h2] at key; exact key
        | some h => exact absurd rfl h
    · simp only [ne_eq, hn, not_false_eq_true, if_true, false_and, iff_false] at key ⊢
      exact fails_not_yields key
  · simp only [hm, if_false] at key ⊢
    by_cases hn : rs.length = s.mappings.length
    · by_cases hk : cols.length = s.ncols
      · simp only [hn, hk, ne_eq, not_true_eq_false, if_false, true_and, and_self] at key ⊢
        have hsl : rs.length = (selCols s.mappings cols).length := by simp [selCols, hm, hn]
        have hget : ∀ (k i : Nat), s.mappings[k]? = some i → ∃ t : Bytes, cols[i]? = some t ∧ (selCols s.mappings cols)[k]? = some t := by
          intro k i hi
          have hi' : i < cols.length := by
            rw [hk]; exact g.sel i (List.mem_of_getElem? hi)
          refine ⟨cols[i], List.getElem?_eq_getElem hi', ?_⟩
          simp [selCols, hm, List.getElem?_map, hi, List.getElem?_eq_getElem hi']
        constructor
        · intro hy
          cases hr : rowCols rs 0 (selCols s.mappings cols) with
          | ok ws =>
            rw [hr] at key
            cases yields_unique key hy
            refine ⟨_, .some hm (by simp [selCols, hm]) ?_, (rowCols_ok hsl).mp hr⟩
            intro k i t h1 h2
            obtain ⟨t', h3, h4⟩ := hget k i h1
            rw [h2] at h3; cases h3; exact h4
          | error m => rw [hr] at key; exact absurd hy (fails_not_yields key)
        · rintro ⟨ss, h1, h2⟩
          have : ss = selCols s.mappings cols := by
            generalize hmm : s.mappings = mm at *
            cases h1 with
            | all => exact absurd rfl hm
            | some _ h5 h6 =>
              apply List.ext_getElem?
              intro k
              cases hk' : mm[k]? with
              | none =>
                have := List.getElem?_eq_none_iff.mp hk'
                rw [List.getElem?_eq_none (by omega), List.getElem?_eq_none (by rw [← hsl]; omega)]
              | some i =>
                obtain ⟨t, h3, h4⟩ := hget k i hk'
                rw [h4, h6 k i t hk' h3]
          subst this
          rw [(rowCols_ok hsl).mpr h2] at key; exact key
      · simp only [hn, hk, ne_eq, not_true_eq_false, not_false_eq_true, if_false, if_true, and_false, false_and, iff_false] at key ⊢
        exact fails_not_yields key
    · simp only [ne_eq, hn, not_false_eq_true, if_true, false_and, iff_false] at key ⊢
      exact fails_not_yields key

/-- C21: when the numbers fit but a column is rejected, the error names the position and the text of the first
rejected column and says whether its conversion or its validation failed. -/
theorem C21_first_failing_column {rs : List Req} {cols ss : List Bytes} {m : Bytes} (hl : line ≠ [])
    (h : Accepts c (Spl.split c delim s.spl) cols) (hf : Fits rs s.mappings s.ncols cols)
    (hs : Selects s.mappings cols ss) (hm : FirstFault rs 0 ss m) :
    Fails c (Conv.convertLine c rs delim s) m := by
  have key := line_result_accepts g (rs := rs) hl h
  unfold rowResult at key
  unfold Fits at hf
  by_cases hmm : s.mappings = []
  · simp only [hmm, if_true] at key hf
    rw [hmm] at hs
    simp only [hf, ne_eq, not_true_eq_false, if_false] at key
    cases hs with
    | all => rw [(rowCols_error hf).mpr hm] at key; exact key
    | some h => exact absurd rfl h
  · simp only [hmm, if_false] at key hf
    obtain ⟨hn, hk⟩ := hf
    simp only [hn, hk, ne_eq, not_true_eq_false, if_false] at key
    have hsl : rs.length = (selCols s.mappings cols).length := by simp [selCols, hmm, hn]
    have : ss = selCols s.mappings cols := by
      have hsel := g.sel
      unfold Conv.SelOk at hsel
      generalize s.mappings = mm at *
      cases hs with
      | all => exact absurd rfl hmm
      | some _ h5 h6 =>
        apply List.ext_getElem?
        intro k
        cases hk' : mm[k]? with
        | none =>
          have := List.getElem?_eq_none_iff.mp hk'
          rw [List.getElem?_eq_none (by omega), List.getElem?_eq_none (by rw [← hsl]; omega)]
        | some i =>
          have hi' : i < cols.length := by rw [hk]; exact hsel i (List.mem_of_getElem? hk')
          rw [h6 k i _ hk' (List.getElem?_eq_getElem hi')]
          simp [selCols, hmm, List.getElem?_map, hk', List.getElem?_eq_getElem hi']
    subst this
    rw [(rowCols_error hsl).mpr hm] at key; exact key

omit g in
/-- C21: exactly one of the two happens when the numbers fit: all columns pass, or there is a first rejected one. -/
theorem C21_or_all_pass {rs : List Req} {ss : List Bytes} (hn : rs.length = ss.length) :
    (∃ vs, RowIs rs ss vs) ∨ ∃ m, FirstFault rs 0 ss m := by
  cases hr : rowCols rs 0 ss with
  | ok vs => exact .inl ⟨vs, (rowCols_ok hn).mp hr⟩
  | error m => exact .inr ⟨m, (rowCols_error hn).mp hr⟩

/-- C20/C21 when the split is rejected: `convert` fails with the message of the split. -/
theorem C20_bad_split {rs : List Req} {m : Bytes} (hl : line ≠ [])
    (h : Rejects c (Spl.split c delim s.spl) m) : Fails c (Conv.convertLine c rs delim s) m := by
  have hf := split_full g.wf g.delim_ne g.delim_nul g.holds
  have hne : ∃ m', endError c line.length (decodeRow c delim line).2 = some m' ∧ (c.mode ≠ .bool → m' = m) := by
    cases hx : endError c line.length (decodeRow c delim line).2 with
    | none =>
      exfalso
      rw [hx] at hf
      obtain ⟨s1, e1, _, e3, _⟩ := hf
      have hv : s1.err.valid c.mode = true := by rw [e3]; exact ErrSt.valid_clear _ _
      unfold Rejects at h
      cases hm : c.mode with
      | throw => rw [hm] at h; obtain ⟨s', h⟩ := h; rw [e1] at h; cases h
      | string => rw [hm] at h hv; obtain ⟨s', h, h2, _⟩ := h; rw [e1] at h; cases h; rw [hv] at h2; cases h2
      | bool => rw [hm] at h hv; obtain ⟨s', h, h2⟩ := h; rw [e1] at h; cases h; rw [hv] at h2; cases h2
    | some m' =>
      refine ⟨m', rfl, ?_⟩
      intro hb
      rw [hx] at hf
      obtain ⟨s1, _, e⟩ := hf
      unfold Rejects at h
      cases hm : c.mode with
      | throw =>
        rw [hm] at h; rw [if_pos hm] at e
        obtain ⟨s', h⟩ := h; rw [e.1] at h; cases h; rfl
      | string =>
        rw [hm] at h; rw [if_neg (by simp [hm])] at e
        obtain ⟨s', h, _, h3⟩ := h; rw [e.1] at h; cases h
        rw [← h3, e.2.1, hm]; rfl
      | bool => exact absurd hm hb
  obtain ⟨m', h1, h2⟩ := hne
  have hcl : Closed c delim line := by
    intro hml
    cases he : (decodeRow c delim line).2 with
    | openQuote a =>
      rw [he] at h1
      simp only [endError, hml, End.throwError, End.stringError, if_true, ite_self] at h1
      cases h1
    | _ => rfl
  have := line_result g (rs := rs) hcl (fun h => absurd h hl)
  simp only [Conv.lineRes, splitRes, hl, if_false, h1] at this
  by_cases hb : c.mode = .bool
  · unfold Fails at this ⊢; rw [hb] at this ⊢; exact this
  · rw [← h2 hb]; exact this

/-- When the split is rejected or the numbers do not fit, what is returned has not been assigned to (see
`C22_defaults_partial`). -/
theorem convert_defaults {rs : List Req} {vs : List Val} {s' : Conv}
    (h : Conv.convertLine c rs delim s = .ok vs s')
    (hbad : (∃ m, splitRes c delim line = .error m) ∨
      (Closed c delim line ∧ ∃ cols, splitRes c delim line = .ok cols ∧ ¬ Fits rs s.mappings s.ncols cols)) :
    vs = Conv.defaults rs := by
  obtain ⟨sp, hk, hsp⟩ := Conv.split_spec g.wf g.delim_ne g.delim_nul g.holds
  have hbs : sp.err.valid c.mode = false → Conv.split c delim s = .ok () { s with spl := sp } → vs = Conv.defaults rs := by
    intro hv h1
    unfold Conv.convertLine at h
    rw [M.bind_of_ok h1] at h
    simp only [M.get_bind, hv, Bool.false_eq_true, if_false, Conv.handleErrorBadSplit, M.modify_bind, M.pure_apply] at h
    cases h; rfl
  rcases hbad with ⟨m, hm⟩ | ⟨hcl, cols, hm, hf⟩
  · rw [hm] at hsp
    obtain ⟨hl, hsp⟩ := hsp
    have hne : m ≠ [] := by
      simp only [splitRes, hl, if_false] at hm
      cases hx : endError c line.length (decodeRow c delim line).2 with
      | none => rw [hx] at hm; cases hm
      | some m' => rw [hx] at hm; cases hm; exact endError_ne_nil hx
    by_cases ht : c.mode = .throw
    · rw [if_pos ht] at hsp
      unfold Conv.convertLine at h
      rw [M.bind_of_exc hsp.1] at h; cases h
    · rw [if_neg ht] at hsp
      exact hbs (by rw [hsp.2.2.1]; exact ErrSt.valid_set ht hne _) hsp.1
  · rw [hm] at hsp
    obtain ⟨h1, h2, h3, h4, _⟩ := hsp
    by_cases hv : sp.err.valid c.mode = true
    · unfold Conv.convertLine at h
      rw [M.bind_of_ok h1] at h
      simp only [M.get_bind, hv, if_true] at h
      have hlen : sp.data.length = cols.length := by rw [← h4 hcl]; simp [Spl.columns]
      unfold Conv.convertImpl at h
      rw [M.bind_of_ok (show Conv.clearError c _ = .ok () { s with spl := sp, err := s.err.clear c.mode } from rfl)] at h
      simp only [M.get_bind, hv, Bool.not_true, Bool.false_eq_true, if_false] at h
      have he : ∀ m (st : Conv), (Conv.handleError c m >>= fun _ => pure (Conv.defaults rs)) st = .ok vs s' →
          vs = Conv.defaults rs := by
        intro m st h
        simp only [M.bind_apply, Conv.handleError_eq] at h
        by_cases ht : c.mode = .throw
        · simp only [ht, if_true] at h; cases h
        · simp only [ht, if_false] at h; cases h; rfl
      unfold Fits at hf
      by_cases hmm : s.mappings = []
      · rw [if_pos hmm] at h hf
        rw [if_pos (by rw [hlen]; exact hf)] at h
        exact he _ _ h
      · rw [if_neg hmm] at h hf
        by_cases ha : rs.length = s.mappings.length
        · rw [if_neg (by simpa using ha), if_pos (by rw [hlen]; exact fun h => hf ⟨ha, h⟩)] at h
          exact he _ _ h
        · rw [if_pos ha] at h
          exact he _ _ h
    · exact hbs (Bool.eq_false_iff.mpr hv) h1

end

/-! ### the hypotheses are met -/

/-- a converter about to convert the line `l` -/
def convOn (l : Bytes) : Conv := { spl := { mem := l ++ NUL :: bs "rest" } }

theorem given_on {c : Cfg} (hc : c.WF) {l : Bytes} (hl : NUL ∉ l) : Given c (bs ",") l (bs "rest") (convOn l) :=
  ⟨hc, by decide, by decide, ⟨rfl, hl, rfl⟩, by intro i hi; cases hi⟩

example : Given fullCfg (bs ",") (bs "1, \"a\",x") (bs "rest") (convOn (bs "1, \"a\",x")) := given_on fullCfg_wf (by decide)
theorem split_on_example : Accepts fullCfg (Spl.split fullCfg (bs ",") (convOn (bs "1, \"a\",x")).spl) [bs "1", bs "a", bs "x"] := by
  obtain ⟨_, s', h, h2⟩ := Res.ok_of (r := Spl.split fullCfg (bs ",") (convOn (bs "1, \"a\",x")).spl)
    (P := fun _ s => s.err.valid fullCfg.mode = true ∧ s.columns = [bs "1", bs "a", bs "x"] ∧ s.unterminatedQuote = false)
    (by decide +kernel)
  exact ⟨s', h, h2⟩

example : Yields fullCfg (Conv.convertLine fullCfg [.ty (.int i32), .void, .ty .char] (bs ",") (convOn (bs "1, \"a\",x")))
    [.int 1, .char 120] := by
  refine (C20_valid_iff (given_on fullCfg_wf (by decide)) (by decide) split_on_example).mpr ⟨rfl, _, .all, ?_⟩
  have h1 : conv (.int i32) (bs "1") = some (.int 1) := by decide +kernel
  have h3 : conv .char (bs "x") = some (.char 120) := by decide +kernel
  exact .cons (.ty h1) (.cons .void (.cons (.ty h3) .nil))

example : Fails fullCfg (Conv.convertLine fullCfg [.ty (.int i32), .void, .ty (.int i32)] (bs ",") (convOn (bs "1, \"a\",x")))
    (bs "invalid conversion for parameter at column 3: 'x'") := by
  refine C21_first_failing_column (given_on fullCfg_wf (by decide)) (by decide) split_on_example rfl .all ?_
  have h1 : conv (.int i32) (bs "1") = some (.int 1) := by decide +kernel
  have h3 : conv (.int i32) (bs "x") = none := by decide +kernel
  exact .later (.ty h1) (.later .void (.here (Fault.ty (i := 2) h3)))

/-! ## C18 for columns -/

/-- The requested type `ax<T, ...>`, `ir<T, ...>`, ... over an integer type -/
def Restr.req (t : IntTy) (r : Restr) : Req :=
  .valid (.int t) (fun v => match v with | .int n => r.valid t n | _ => true) r.error

/-- C18: a column requested with a restriction is valid iff it is a literal of a representable value which the
restriction accepts (under the hypothesis of `C18_restriction_exact_partial`). -/
theorem C18_column_partial (t : IntTy) (r : Restr) (s : Bytes) (ov : Option Val)
    (h : ∀ n, t.Represents n → ∀ l ∈ r.lits, NoWrap t n l) :
    Passes (r.req t) s ov ↔ ∃ n, ov = some (.int n) ∧ Literal t.signed s n ∧ t.Represents n ∧ r.Accepts n := by
  constructor
  · intro hp
    cases hp with
    | valid h1 h2 =>
      obtain ⟨n, rfl, h3, h4⟩ := (C13_integer_exact t s _).mp h1
      exact ⟨n, rfl, h3, h4, (C18_restriction_exact_partial t n r (h n h4)).mp h2⟩
  · rintro ⟨n, rfl, h1, h2, h3⟩
    exact .valid ((C13_integer_exact t s _).mpr ⟨n, rfl, h1, h2⟩)
      ((C18_restriction_exact_partial t n r (h n h2)).mpr h3)

/-- C18, for whole rows: a line of one column, converted to a type with a restriction, is valid iff the column is a literal
of a representable value which the restriction accepts, and then this value is returned. -/
theorem C18_convert_partial {c : Cfg} {delim line T col : Bytes} {s : Conv} (g : Given c delim line T s) (hl : line ≠ [])
    (h : Accepts c (Spl.split c delim s.spl) [col]) (hsel : s.mappings = []) (t : IntTy) (r : Restr)
    (hr : ∀ n, t.Represents n → ∀ l ∈ r.lits, NoWrap t n l) (vs : List Val) :
    Yields c (Conv.convertLine c [r.req t] delim s) vs ↔
      ∃ n, vs = [.int n] ∧ Literal t.signed col n ∧ t.Represents n ∧ r.Accepts n := by
  rw [C20_valid_iff g hl h, hsel]
  constructor
  · rintro ⟨_, ss, hs, hrow⟩
    cases hs with
    | some hne => exact absurd rfl hne
    | all =>
      cases hrow with
      | cons hp hn =>
        cases hn
        obtain ⟨n, rfl, h3⟩ := (C18_column_partial t r col _ hr).mp hp
        exact ⟨n, rfl, h3⟩
  · rintro ⟨n, rfl, h3⟩
    exact ⟨rfl, _, .all, .cons ((C18_column_partial t r col (some (.int n)) hr).mpr ⟨n, rfl, h3⟩) .nil⟩

/-- The requested type `ne<std::string>` -/
def neReq : Req := .valid .str neValid (bs "empty field")

/-- C18, for whole rows: a line of one column, converted to `ne<std::string>`, is valid iff the column is not empty. -/
theorem C18_convert_non_empty {c : Cfg} {delim line T col : Bytes} {s : Conv} (g : Given c delim line T s) (hl : line ≠ [])
    (h : Accepts c (Spl.split c delim s.spl) [col]) (hsel : s.mappings = []) (vs : List Val) :
    Yields c (Conv.convertLine c [neReq] delim s) vs ↔ vs = [.str col] ∧ col ≠ [] := by
  rw [C20_valid_iff g hl h, hsel]
  constructor
  · rintro ⟨_, ss, hs, hrow⟩
    cases hs with
    | some hne => exact absurd rfl hne
    | all =>
      cases hrow with
      | cons hp hn =>
        cases hn
        cases hp with
        | valid h1 h2 =>
          rw [C15_string_exact col] at h1
          cases h1
          exact ⟨rfl, (C18_non_empty _).mp h2⟩
  · rintro ⟨rfl, h3⟩
    exact ⟨rfl, _, .all, .cons (.valid (v := .str col) (C15_string_exact col) ((C18_non_empty _).mpr h3)) .nil⟩

/-- C20, in two steps: `split(line, delim)` followed by `convert<Ts...>()` does exactly what `convert<Ts...>(line, delim)`
does - same values, same error, same exception, same state of the converter; in particular a row that could not be split
is not accepted. -/
theorem C20_split_then_convert (c : Cfg) (delim : Bytes) (rs : List Req) (s : Conv) :
    (do Conv.split c delim; Conv.convertCached c rs) s = Conv.convertLine c rs delim s := by
  unfold Conv.convertLine
  cases h : Conv.split c delim s with
  | ok a s1 =>
    rw [M.bind_of_ok h, M.bind_of_ok h]
    simp only [Conv.convertCached, M.get_bind]
    cases hv : s1.spl.err.valid c.mode with
    | true => simp only [if_true]
    | false =>
      unfold Conv.convertImpl
      simp only [Conv.clearError, M.modify_bind, M.get_bind, hv, Bool.not_false, if_true, Bool.false_eq_true, if_false,
        Conv.handleErrorBadSplit, M.pure_apply]
      cases hm : c.mode <;> simp [ErrSt.clear]
  | exc e s1 => rw [M.bind_of_exc h, M.bind_of_exc h]
  | ub => simp only [M.bind_apply, h]
  | nofuel => simp only [M.bind_apply, h]

/-- the hypotheses of the theorems above are met: "7" as `ir<int, 1, 9>` is 7, "12" is refused; `split` then `convert` of a
row with an open quote fails -/
example : Yields fullCfg (Conv.convertLine fullCfg [(Restr.ir ⟨i32, 1⟩ ⟨i32, 9⟩).req i32] (bs ",") (convOn (bs "7"))) [.int 7] ∧
    ¬ Yields fullCfg (Conv.convertLine fullCfg [(Restr.ir ⟨i32, 1⟩ ⟨i32, 9⟩).req i32] (bs ",") (convOn (bs "12"))) [.int 12] := by
  have hw : ∀ n, i32.Represents n → ∀ l ∈ (Restr.ir ⟨i32, 1⟩ ⟨i32, 9⟩).lits, NoWrap i32 n l := by
    intro n hn l hl
    simp only [Restr.lits, List.mem_cons, List.not_mem_nil, or_false] at hl
    rcases hl with rfl | rfl
    · exact ⟨hn, by simp [IntTy.Represents, i32], .inl rfl⟩
    · exact ⟨hn, by simp [IntTy.Represents, i32], .inl rfl⟩
  have hs : ∀ l : Bytes, l = bs "7" ∨ l = bs "12" → Accepts fullCfg (Spl.split fullCfg (bs ",") (convOn l).spl) [l] := by
    rintro l (rfl | rfl)
    · obtain ⟨_, s', h, h2⟩ := Res.ok_of (r := Spl.split fullCfg (bs ",") (convOn (bs "7")).spl)
        (P := fun _ s => s.err.valid fullCfg.mode = true ∧ s.columns = [bs "7"] ∧ s.unterminatedQuote = false) (by decide +kernel)
      exact ⟨s', h, h2⟩
    · obtain ⟨_, s', h, h2⟩ := Res.ok_of (r := Spl.split fullCfg (bs ",") (convOn (bs "12")).spl)
        (P := fun _ s => s.err.valid fullCfg.mode = true ∧ s.columns = [bs "12"] ∧ s.unterminatedQuote = false) (by decide +kernel)
      exact ⟨s', h, h2⟩
  refine ⟨(C18_convert_partial (given_on fullCfg_wf (by decide)) (by decide) (hs _ (.inl rfl)) rfl i32 _ hw _).mpr ?_, fun h => ?_⟩
  · obtain ⟨n, h1, h2, h3⟩ := (C13_integer_exact i32 (bs "7") (.int 7)).mp (by decide +kernel)
    cases h1
    exact ⟨7, rfl, h2, h3, by simp [Restr.Accepts]⟩
  · obtain ⟨n, h1, _, _, h4⟩ := (C18_convert_partial (given_on fullCfg_wf (by decide)) (by decide) (hs _ (.inr rfl)) rfl i32 _ hw _).mp h
    cases h1
    simp [Restr.Accepts] at h4

/-! ## C23 -/

/-- On the empty line a converter reports the error of an earlier bad split: `convert<int>("\"a")` followed by
`convert<int>("")` says "unterminated quote", a fresh converter says "invalid number of columns". -/
theorem C23_stale_error_on_empty_line :
    let c : Cfg := { quote := some 34, mode := .string }
    let s : Conv := ((Conv.convertLine c [.ty .str] (bs ",") { spl := { mem := bs "\"a" ++ [NUL] } }).state?).getD {}
    Given c (bs ",") [] (bs "a") { s with spl := { s.spl with mem := NUL :: bs "a" } } ∧
    Fails c (Conv.convertLine c [.ty .str] (bs ",") { s with spl := { s.spl with mem := NUL :: bs "a" } })
      (bs "unterminated quote") ∧
    Fails c (Conv.convertLine c [.ty .str] (bs ",") { spl := { mem := NUL :: bs "a" } })
      (bs "invalid number of columns, expected: 1, got: 0") := by
  refine ⟨⟨by constructor <;> simp <;> decide, by decide, by decide, ⟨rfl, by decide, by decide +kernel⟩, ?_⟩, ?_, ?_⟩
  · rw [Conv.SelOk]; intro i hi
    have : i ∈ ([] : List Nat) := hi
    cases this
  · exact Res.ok_of (P := fun _ s => Conv.valid _ s = false ∧ s.err.msg = _) (by decide +kernel)
  · exact Res.ok_of (P := fun _ s => Conv.valid _ s = false ∧ s.err.msg = _) (by decide +kernel)

end Ssp
