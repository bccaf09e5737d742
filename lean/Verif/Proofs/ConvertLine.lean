import Verif.Proofs.Convert
/-!
# `converter::split` and `convert(line)` in terms of the decoded row
-/
namespace Ssp
open Spec Spl

/-- the message with which a split is rejected, in the error mode of the setup -/
def endError (c : Cfg) (len : Nat) (e : End) : Option Bytes :=
  if c.mode = .throw then e.throwError c.multiline len else e.stringError c.multiline len

theorem endError_none_iff {c : Cfg} {len n : Nat} {e : End} :
    endError c len e = none ↔ e.stringError c.multiline n = none := by
  unfold endError
  split
  · exact throwError_none_iff _ _ _ _
  · exact stringError_none_iff _ _ _ _

theorem endError_ne_nil {c : Cfg} {len : Nat} {e : End} {m : Bytes} (h : endError c len e = some m) : m ≠ [] := by
  unfold endError at h
  split at h
  · cases e with
    | mismatch r b =>
      cases b <;> cases hm : c.multiline <;> simp [End.throwError, End.stringError, hm] at h <;> subst h <;>
        simp [Spl.msgUnterminatedEscape, Spl.msgMismatchedQuote, bs]
    | _ => exact stringError_ne_nil (by simpa [End.throwError] using h)
  · exact stringError_ne_nil h

/-- A column the row ends with although the quote is still open (multiline only): not a field of the row. -/
def Spec.End.isOpenQuote : End → Bool
  | .openQuote _ => true
  | _ => false

/-- What an operation on a line of `n` bytes keeps of the splitter. -/
structure Kept (n : Nat) (s s' : Spl) : Prop where
  gen : s'.gen = s.gen
  live : s'.gen = s'.lineGen ∨ s'.data = []
  idle : s'.resplitting = s.resplitting
  len : s'.mem.length = s.mem.length
  suf : s'.mem.drop n = s.mem.drop n

/-- `split` on a non-empty line. -/
theorem split_full {c : Cfg} (hc : c.WF) {delim line T : Bytes} {s : Spl}
    (hd : delim ≠ []) (hd0 : NUL ∉ delim) (hs : Holds s line T) :
    match endError c line.length (decodeRow c delim line).2 with
    | none => ∃ s', Spl.split c delim s = .ok () s' ∧ Kept line.length s s' ∧ s'.err = s.err.clear c.mode ∧
        Known c delim line s' ∧ Readable s' ∧
        ((decodeRow c delim line).2.isOpenQuote = false → s'.columns = (decodeRow c delim line).1)
    | some m => ∃ s', Kept line.length s s' ∧
        if c.mode = .throw then Spl.split c delim s = .exc m s' ∧ s'.err = s.err ∧
          (c.multiline = true → s'.unterminatedQuote = false)
        else Spl.split c delim s = .ok () s' ∧ s'.err = (s.err.clear c.mode).set c.mode m ∧
          Known c delim line s' ∧ Readable s' := by
  have hpost := split_post hc hd hd0 hs
  have hkept : ∀ s', Frame 0 line.length (start0 c s) s' → Kept line.length s s' := fun s' h =>
    ⟨h.gen, .inl (h.gen.trans h.lineGen.symm), h.resplitting, h.len, h.suf⟩
  have hread : ∀ s', Frame 0 line.length (start0 c s) s' →
      Left c 0 line.length T (start0 c s).data (decodeRow c delim line).1 (decodeRow c delim line).2
        (openLenRow c delim line) false s' →
      Readable s' := by
    intro s' hf hl
    have hlen : line.length < s'.mem.length := by
      rw [hf.len]; show _ < s.mem.length; rw [hs.mem]; simp
    refine ⟨.inl (hf.gen.trans hf.lineGen.symm), ?_⟩
    obtain ⟨_, hl⟩ := hl
    cases he : (decodeRow c delim line).2 with
    | openQuote a =>
      rw [he] at hl
      obtain ⟨ds, P, q, G, h1, _, h3, h4, _⟩ := hl
      have hP : s'.mem.length = P.length + (1 + (a.length + (G.length + (1 + T.length)))) := by
        rw [h3]; simp; omega
      intro p hp
      rw [h4] at hp
      simp only [start0, List.nil_append, List.mem_append, List.mem_singleton] at hp
      rcases hp with hp | rfl
      · have := h1.inside.1 p hp; omega
      · simp; omega
    | mismatch r b =>
      rw [he] at hl
      obtain ⟨ds, p', h1, h2, h3, _⟩ := hl
      intro p hp
      rw [h2] at hp
      simp only [start0, List.nil_append, List.mem_append, List.mem_singleton] at hp
      rcases hp with hp | rfl
      · have := h1.inside.1 p hp; omega
      · simp; omega
    | eol =>
      rw [he] at hl; obtain ⟨ds, h1, h2, _⟩ := hl
      intro p hp; rw [h2] at hp; simp only [start0, List.nil_append] at hp
      have := h1.inside.1 p hp; omega
    | eolEscape =>
      rw [he] at hl; obtain ⟨ds, h1, h2, _⟩ := hl
      intro p hp; rw [h2] at hp; simp only [start0, List.nil_append] at hp
      have := h1.inside.1 p hp; omega
    | openEscape =>
      rw [he] at hl; obtain ⟨ds, h1, h2, _⟩ := hl
      intro p hp; rw [h2] at hp; simp only [start0, List.nil_append] at hp
      have := h1.inside.1 p hp; omega
  unfold LoopPost Outcome at hpost
  have hknown : ∀ s', Spl.split c delim s = .ok () s' → Known c delim line s' := by
    intro s' h
    rcases split_known hc hd hd0 hs with ⟨s1, e1, e2, _⟩ | ⟨m, s1, e1, _⟩
    · rw [h] at e1; cases e1; exact e2
    · rw [h] at e1; cases e1
  cases hx : endError c line.length (decodeRow c delim line).2 with
  | none =>
    have h1 : (decodeRow c delim line).2.stringError c.multiline line.length = none := endError_none_iff.mp hx
    have h2 : (decodeRow c delim line).2.throwError c.multiline line.length = none := (throwError_none_iff _ _ _ line.length).mpr h1
    rw [h1, h2] at hpost
    simp only [ite_self] at hpost
    obtain ⟨s', e1, e2, e3, e4⟩ := hpost
    have hk := hknown s' e1
    refine ⟨s', e1, hkept s' e2, e3, hk, hread s' e2 e4, ?_⟩
    intro ho
    refine hk.columns ?_ ?_
    · cases hu : s'.unterminatedQuote with
      | false => rfl
      | true =>
        obtain ⟨a, ha⟩ := hk.uq_iff.mp hu
        rw [ha] at ho; cases ho
    · intro r b he; rw [he] at h1; simp [End.stringError] at h1
  | some m =>
    by_cases hm : c.mode = .throw
    · simp only [endError, hm, if_true] at hx
      simp only [hm, if_true, hx] at hpost ⊢
      obtain ⟨s', e1, e2, e3, e4⟩ := hpost
      refine ⟨s', hkept s' e2, e1, ?_, fun h => e4 h⟩
      rw [e3]; show s.err.clear c.mode = s.err; rw [hm]; rfl
    · simp only [endError, hm, if_false] at hx
      simp only [hm, if_false, hx] at hpost ⊢
      obtain ⟨s', e1, e2, e3, e4⟩ := hpost
      exact ⟨s', hkept s' e2, e1, e3, hknown s' e1, hread s' e2 e4⟩

/-- The outcome of splitting a line with the converter: the columns, or the message of the error. -/
def splitRes (c : Cfg) (delim line : Bytes) : Except Bytes (List Bytes) :=
  if line = [] then .ok []
  else match endError c line.length (decodeRow c delim line).2 with
    | some m => .error m
    | none => .ok (decodeRow c delim line).1

/-- The line is not left inside a quote (as only multiline setups allow). -/
def Closed (c : Cfg) (delim line : Bytes) : Prop :=
  c.multiline = true → (decodeRow c delim line).2.isOpenQuote = false

namespace Conv
open Conv

theorem onSpl_ok {α : Type} {m : M Spl α} {s : Conv} {a : α} {sp : Spl} (h : m s.spl = .ok a sp) :
    onSpl m s = .ok a { s with spl := sp } := by simp [onSpl, h]
theorem onSpl_exc {α : Type} {m : M Spl α} {s : Conv} {e : Bytes} {sp : Spl} (h : m s.spl = .exc e sp) :
    onSpl m s = .exc e { s with spl := sp } := by simp [onSpl, h]

theorem split_nil {c : Cfg} {delim T : Bytes} {s : Conv} (hs : Holds s.spl [] T) :
    split c delim s = .ok () { s with spl := { s.spl with data := [] } } := by
  unfold split
  rw [M.bind_of_ok (show M.modify _ s = .ok () { s with spl := { s.spl with data := [] } } from rfl)]
  rw [M.bind_of_ok (onSpl_ok (a := NUL) (sp := { s.spl with data := [] }) (by simp [Spl.rd, hs.mem]))]
  rfl

theorem split_cons {c : Cfg} {delim line T : Bytes} {s : Conv} (hl : line ≠ []) (hs : Holds s.spl line T) :
    split c delim s = onSpl (Spl.split c delim) { s with spl := { s.spl with data := [] } } := by
  obtain ⟨x, xs, rfl⟩ := List.exists_cons_of_ne_nil hl
  unfold split
  rw [M.bind_of_ok (show M.modify _ s = .ok () { s with spl := { s.spl with data := [] } } from rfl)]
  rw [M.bind_of_ok (onSpl_ok (a := x) (sp := { s.spl with data := [] }) (by simp [Spl.rd, hs.mem]))]
  rw [if_neg (by have := hs.nul; simp at this; exact fun h => this.1 h.symm)]

/-- `converter::split` -/
theorem split_spec {c : Cfg} (hc : c.WF) {delim line T : Bytes} {s : Conv}
    (hd : delim ≠ []) (hd0 : NUL ∉ delim) (hs : Holds s.spl line T) :
    ∃ sp, Kept line.length s.spl sp ∧
    match splitRes c delim line with
    | .ok cols => split c delim s = .ok () { s with spl := sp } ∧ Readable sp ∧
        sp.err = (if line = [] then s.spl.err else s.spl.err.clear c.mode) ∧
        (Closed c delim line → sp.columns = cols) ∧
        (line = [] → sp.unterminatedQuote = s.spl.unterminatedQuote) ∧ (line ≠ [] → Known c delim line sp)
    | .error m => line ≠ [] ∧
        if c.mode = .throw then split c delim s = .exc m { s with spl := sp } ∧ sp.err = s.spl.err ∧
          (c.multiline = true → sp.unterminatedQuote = false)
        else split c delim s = .ok () { s with spl := sp } ∧ Readable sp ∧
          sp.err = (s.spl.err.clear c.mode).set c.mode m ∧ Known c delim line sp := by
  by_cases hl : line = []
  · subst hl
    refine ⟨{ s.spl with data := [] }, ⟨rfl, .inr rfl, rfl, rfl, rfl⟩, ?_⟩
    simp only [splitRes, if_true]
    exact ⟨split_nil hs, ⟨.inr rfl, by simp⟩, trivial, fun _ => rfl, fun _ => trivial, fun h => absurd rfl h⟩
  · have hs' : Holds { s.spl with data := [] } line T := ⟨hs.mem, hs.nul, hs.idle⟩
    have := split_full hc hd hd0 hs'
    simp only [splitRes, hl, if_false, split_cons hl hs]
    cases hx : endError c line.length (decodeRow c delim line).2 with
    | none =>
      rw [hx] at this
      obtain ⟨sp, e1, e2, e3, e4, e5, e6⟩ := this
      refine ⟨sp, ⟨e2.1, e2.2, e2.3, e2.4, e2.5⟩, onSpl_ok e1, e5, e3, ?_, fun h => h.elim, fun _ => e4⟩
      intro hcl
      cases hm : c.multiline with
      | true => exact e6 (hcl hm)
      | false =>
        apply e6
        have := (endError_none_iff (n := 0)).mp hx
        cases he : (decodeRow c delim line).2 with
        | openQuote a => rw [he, hm] at this; simp [End.stringError] at this
        | _ => rfl
    | some m =>
      rw [hx] at this
      obtain ⟨sp, e2, e3⟩ := this
      refine ⟨sp, ⟨e2.1, e2.2, e2.3, e2.4, e2.5⟩, hl, ?_⟩
      by_cases hm : c.mode = .throw
      · rw [if_pos hm] at e3 ⊢
        exact ⟨onSpl_exc e3.1, e3.2⟩
      · rw [if_neg hm] at e3 ⊢
        exact ⟨onSpl_ok e3.1, e3.2.2.2, e3.2.1, e3.2.2.1⟩

/-- The outcome of `convert(line)` when the splitter held no error before. -/
def lineRes (c : Cfg) (delim : Bytes) (rs : List Req) (sel : List Nat) (ncols : Nat) (line : Bytes) :
    Except Bytes (List Val) :=
  match splitRes c delim line with
  | .error m => .error m
  | .ok cols => rowResult rs sel ncols cols

theorem rowResult_nonempty_error {rs : List Req} {sel : List Nat} {ncols : Nat} {cols : List Bytes} {m : Bytes}
    (h : rowResult rs sel ncols cols = .error m) : m ≠ [] := by
  unfold rowResult at h
  have rc : ∀ (rs : List Req) i ss, rs.length = ss.length → rowCols rs i ss = .error m → m ≠ [] := by
    intro rs i ss hl hr
    have := (rowCols_error hl).mp hr
    clear hr hl h
    induction this with
    | here h => exact reqCheck_msg_ne (reqCheck_error.mpr h)
    | later _ _ ih => exact ih
  split at h
  · split at h
    · cases h; simp [msgNumberOfColumns, bs]
    · rename_i h'; exact rc _ _ _ (by simpa using h') h
  · rename_i hsel
    split at h
    · cases h; simp [msgIncompatibleMapping, bs]
    · rename_i h'
      split at h
      · cases h; simp [msgNumberOfColumns, bs]
      · exact rc _ _ _ (by simpa [selCols, hsel] using h') h

/-- `convert(line)`, given the columns -/
theorem convertLine_gen {c : Cfg} (hc : c.WF) {delim line T : Bytes} {s : Conv} {rs : List Req}
    (hd : delim ≠ []) (hd0 : NUL ∉ delim) (hs : Holds s.spl line T)
    (hsel : s.SelOk) (hst : line = [] → s.spl.err.valid c.mode = true) {f : List Bytes → List Bytes}
    (hcols : ∀ sp cols, splitRes c delim line = .ok cols → split c delim s = .ok () { s with spl := sp } → sp.columns = f cols) :
    match (splitRes c delim line).map f with
    | .error m => Fails c (convertLine c rs delim s) m
    | .ok cols => match rowResult rs s.mappings s.ncols cols with
      | .ok vs => Yields c (convertLine c rs delim s) vs
      | .error m => Fails c (convertLine c rs delim s) m := by
  obtain ⟨sp, hk, h⟩ := split_spec hc hd hd0 hs
  cases hsr : splitRes c delim line with
  | ok cols =>
    rw [hsr] at h
    obtain ⟨h1, h2, h3, h4, _⟩ := h
    have hv : sp.err.valid c.mode = true := by
      rw [h3]; split
      · rename_i hl; exact hst hl
      · exact ErrSt.valid_clear _ _
    simp only [Except.map]
    have he : convertLine c rs delim s = convertImpl c rs sp.data { s with spl := sp } := by
      unfold convertLine
      rw [M.bind_of_ok h1]
      simp [hv]
    rw [he, ← hcols sp cols hsr h1]
    have := convertImpl_spec (c := c) (rs := rs) (s := { s with spl := sp }) h2 hsel hv
    simp only at this
    revert this
    cases hr : rowResult rs s.mappings s.ncols sp.columns with
    | ok vs =>
      intro h
      exact ⟨_, h, ErrSt.valid_clear _ _⟩
    | error m =>
      intro h
      simp only [ErrSet] at h
      unfold Fails
      have hne := rowResult_nonempty_error hr
      cases hm : c.mode with
      | throw => rw [if_pos hm] at h; exact ⟨_, h⟩
      | string =>
        rw [if_neg (by simp [hm])] at h
        obtain ⟨vs, h⟩ := h
        refine ⟨vs, _, h, ?_, ?_⟩
        · exact ErrSt.valid_set (by simp [hm]) hne _
        · simp [hm, ErrSt.set]
      | bool =>
        rw [if_neg (by simp [hm])] at h
        obtain ⟨vs, h⟩ := h
        refine ⟨vs, _, h, ?_⟩
        exact ErrSt.valid_set (by simp [hm]) hne _
  | error m =>
    rw [hsr] at h
    obtain ⟨hl, h⟩ := h
    simp only [Except.map]
    have hne : m ≠ [] := by
      simp only [splitRes, hl, if_false] at hsr
      cases hx : endError c line.length (decodeRow c delim line).2 with
      | none => rw [hx] at hsr; cases hsr
      | some m' => rw [hx] at hsr; cases hsr; exact endError_ne_nil hx
    unfold Fails
    cases hm : c.mode with
    | throw =>
      rw [if_pos hm] at h
      exact ⟨_, by unfold convertLine; rw [M.bind_of_exc h.1]⟩
    | string =>
      rw [if_neg (by simp [hm])] at h
      obtain ⟨h1, h2, h3, _⟩ := h
      have hv : sp.err.valid c.mode = false := by rw [h3]; exact ErrSt.valid_set (by simp [hm]) hne _
      refine ⟨defaults rs, { s with spl := sp, err := { s.err with msg := sp.err.msg } }, ?_, ?_, ?_⟩
      · unfold convertLine
        rw [M.bind_of_ok h1]
        simp only [M.get_bind, hv, Bool.false_eq_true, if_false]
        simp only [handleErrorBadSplit, M.modify_bind, hm, M.pure_apply]
      · simp only [valid, hm, ErrSt.valid] at hv ⊢
        exact hv
      · simp [hm, h3, ErrSt.set]
    | bool =>
      rw [if_neg (by simp [hm])] at h
      obtain ⟨h1, h2, h3, _⟩ := h
      have hv : sp.err.valid c.mode = false := by rw [h3]; exact ErrSt.valid_set (by simp [hm]) hne _
      refine ⟨defaults rs, { s with spl := sp, err := { s.err with flag := true } }, ?_, ?_⟩
      · unfold convertLine
        rw [M.bind_of_ok h1]
        simp only [M.get_bind, hv, Bool.false_eq_true, if_false]
        simp only [handleErrorBadSplit, M.modify_bind, hm, M.pure_apply]
      · simp [hm, valid, ErrSt.valid]

/-- `convert(line)` -/
theorem convertLine_spec {c : Cfg} (hc : c.WF) {delim line T : Bytes} {s : Conv} {rs : List Req}
    (hd : delim ≠ []) (hd0 : NUL ∉ delim) (hs : Holds s.spl line T)
    (hsel : s.SelOk) (hcl : Closed c delim line) (hst : line = [] → s.spl.err.valid c.mode = true) :
    match lineRes c delim rs s.mappings s.ncols line with
    | .ok vs => Yields c (convertLine c rs delim s) vs
    | .error m => Fails c (convertLine c rs delim s) m := by
  obtain ⟨sp, hk, h⟩ := split_spec hc hd hd0 hs
  have := convertLine_gen hc (rs := rs) hd hd0 hs hsel hst (f := id) (by
    intro sp' cols h1 h2
    rw [h1] at h
    obtain ⟨h3, _, _, h4, _⟩ := h
    rw [h3] at h2
    have : sp' = sp := by have := (Res.ok.inj h2).2; exact (congrArg Conv.spl this).symm
    rw [this]
    exact h4 hcl)
  unfold lineRes
  cases hr : splitRes c delim line with
  | ok cols => rw [hr] at this; exact this
  | error m => rw [hr] at this; exact this

end Conv
end Ssp
