import Verif.Proofs.MachineRun
/-!
# The rows that are left
-/
namespace Ssp
open Spec

theorem rest_eq (x : Ctx) (n : Nat) : x.rest n = rowsOf x.cfg.ignoreEmpty ((rawLines x.src.data).drop n) := by
  simp [Ctx.rest, rowsOf, lines, List.map_drop]

theorem MHere.rest {x : Ctx} {t : Mach} (h : MHere x t.rd) (hb : MBase x t.rd) : x.rest t.line = t.rd.rows x := by
  have hln : t.line = t.rd.ln - 1 := by unfold Mach.line; rw [if_pos h.ln]
  have hl := h.look
  have hlt : t.rd.ln - 1 < (rawLines x.src.data).length := by
    false_or_by_contra
    rw [List.getElem?_eq_none (by omega)] at hl
    cases hl
  have hln' := h.ln
  rw [rest_eq, hln, List.drop_eq_getElem_cons hlt]
  rw [List.getElem?_eq_getElem hlt] at hl
  simp only [Option.map_some, Option.some.injEq] at hl
  have he : t.rd.ln - 1 + 1 = t.rd.ln := by omega
  have := rowsOf_cons (ie := x.cfg.ignoreEmpty) (blank := []) (rest := (rawLines x.src.data).drop (t.rd.ln - 1 + 1))
    (l := (rawLines x.src.data)[t.rd.ln - 1]) (by simp) (by intro h'; rw [hl]; exact h.full h')
  simp only [List.nil_append] at this
  rw [this, hl, he, ← hb.todo]
  rfl

theorem MOver.rest {x : Ctx} {t : Mach} (h : MOver x t.rd) : x.rest t.line = [] := by
  have := h.ln
  rw [rest_eq, List.drop_eq_nil_of_le (by unfold Mach.line; split <;> omega)]
  rfl

theorem MInv.rest_eof {x : Ctx} {t : Mach} (h : MInv x t) (he : t.eof = true) : x.rest t.line = [] := by
  rcases (h.over he).2 with ⟨_, h2, _⟩ | h
  · rw [rest_eq, h2]; simp [rawLines, rowsOf]
  · exact h.rest

/-- the machine stands at the row `l`, and `ls` follow -/
theorem MInv.rest_here {x : Ctx} {t : Mach} (h : MInv x t) {l : Bytes} {ls : List Bytes} (hr : x.rest t.line = l :: ls) :
    t.eof = false ∧ MHere x t.rd ∧ t.rd.look = l ∧ rowsOf x.cfg.ignoreEmpty t.rd.todo = ls := by
  cases he : t.eof with
  | true => rw [h.rest_eof he] at hr; cases hr
  | false =>
    rcases h.here he with hh | hh
    · rw [hh.rest h.base] at hr
      cases hr
      exact ⟨rfl, hh, rfl, rfl⟩
    · rw [hh.rest] at hr; cases hr

theorem MInv.rest_over {x : Ctx} {t : Mach} (h : MInv x t) (hr : x.rest t.line = []) :
    t.eof = true ∨ (t.eof = false ∧ MOver x t.rd) := by
  cases he : t.eof with
  | true => exact .inl rfl
  | false =>
    rcases h.here he with hh | hh
    · rw [hh.rest h.base] at hr; cases hr
    · exact .inr ⟨rfl, hh⟩

/-- reading ahead -/
theorem MBase.rest_read {x : Ctx} {a : MRd} (h : MBase x a) (t : Mach) (ht : t.rd = (a.readR x).2) :
    x.rest t.line = rowsOf x.cfg.ignoreEmpty a.todo ∧ (a.readR x).1 = !(rowsOf x.cfg.ignoreEmpty a.todo).isEmpty := by
  obtain ⟨r1, r2, r3, _⟩ := h.read
  rw [← ht] at r1 r2 r3
  cases hb : (a.readR x).1 with
  | true =>
    obtain ⟨h1, h2⟩ := r2 hb
    rw [h1.rest r1, h2]
    exact ⟨rfl, rfl⟩
  | false =>
    obtain ⟨h1, _, h2⟩ := r3 hb
    rw [h1.rest, h2]
    exact ⟨rfl, rfl⟩

/-! ## A row and a new converter -/

theorem Parser.fresh_result {x : Ctx} (hx : x.Ok) (hm : x.cfg.multiline = false) {s : Parser} {t : Mach} (h : PRel x s t)
    (rs : List Req) (l : Bytes) :
    match rowOf rs t.rd.sel t.rd.ncols (splitRes x.cfg x.delim (cutNul l)) with
    | .ok vs => Ssp.Yields x.cfg (s.fresh x rs l) vs
    | .error m => Ssp.Fails x.cfg (s.fresh x rs l) m := by
  obtain ⟨T, hT⟩ := cutNul_append_nul l []
  have hs : Holds (s.converter l).spl (cutNul l) T := ⟨hT, cutNul_nul _, rfl⟩
  have hsel : (s.converter l).SelOk := by
    show ∀ i ∈ s.rd.cur.conv.mappings, i < s.rd.cur.conv.ncols
    rw [h.base.cur.sel, h.base.cur.ncols]
    exact h.base.selok
  have hv : (s.converter l).spl.err.valid x.cfg.mode = true := by
    show ({} : ErrSt).valid _ = true
    cases x.cfg.mode <;> rfl
  have := Conv.convertLine_spec hx.wf (rs := rs) hx.delim hx.delim0 hs hsel (fun h => by rw [hm] at h; cases h) (fun _ => hv)
  have e1 : (s.converter l).mappings = t.rd.sel := h.base.cur.sel
  have e2 : (s.converter l).ncols = t.rd.ncols := h.base.cur.ncols
  rw [e1, e2] at this
  have e3 : Conv.lineRes x.cfg x.delim rs t.rd.sel t.rd.ncols (cutNul l) =
      rowOf rs t.rd.sel t.rd.ncols (splitRes x.cfg x.delim (cutNul l)) := by
    unfold Conv.lineRes rowOf
    cases splitRes x.cfg x.delim (cutNul l) <;> rfl
  rw [e3] at this
  exact this

/-- an error left behind in the splitter makes no difference to whether a row is accepted -/
theorem rowOf_rowRes {x : Ctx} {a : MRd} {rs : List Req} (hrs : rs ≠ []) (hsel : ∀ i ∈ a.sel, i < a.ncols) :
    rowOf rs a.sel a.ncols (a.rowRes x) = rowOf rs a.sel a.ncols (splitRes x.cfg x.delim (cutNul a.look)) ∨
    (cutNul a.look = [] ∧ a.next.serr.valid x.cfg.mode = false ∧
      rowOf rs a.sel a.ncols (a.rowRes x) = .error a.next.serr.msg ∧
      ∃ m, rowOf rs a.sel a.ncols (splitRes x.cfg x.delim (cutNul a.look)) = .error m) := by
  unfold MRd.rowRes
  split
  · rename_i h
    right
    refine ⟨h.1, h.2, rfl, ?_⟩
    rw [h.1]
    simp only [splitRes, if_true, rowOf, rowResult]
    split
    · exact ⟨_, by rw [if_pos (by simpa using hrs)]⟩
    · rename_i hs
      split
      · exact ⟨_, rfl⟩
      · rw [if_pos]
        · exact ⟨_, rfl⟩
        · obtain ⟨i, l, hl⟩ := List.exists_cons_of_ne_nil hs
          have := hsel i (by rw [hl]; simp)
          simp; omega
  · exact .inl rfl

/-! ## The calls of a parser -/

theorem Mach.line_eq (t : Mach) : t.line = t.rd.ln - 1 := by unfold Mach.line; split <;> omega

/-- the outcome of `get_next` -/
def RowOut (x : Ctx) (n : Nat) (r : Res Parser (List Val)) (s' : Parser) (res : Except Bytes (List Val)) : Prop :=
  match res with
  | .ok vs => r = .ok vs s' ∧ s'.valid x.cfg = true
  | .error m =>
    if x.cfg.mode = .throw then r = .exc (x.at s'.line m) s'
    else ∃ vs, r = .ok vs s' ∧ s'.valid x.cfg = false ∧ (x.cfg.mode = .string → s'.err.msg = x.at n m)

/-- The outcome of `get_next` in terms of the parser. -/
theorem getNext_parser {x : Ctx} (hx : x.Good) {s : Parser} {t t' : Mach} (h : PRel x s t) {rs : List Req} {n : Nat}
    {res : Except Bytes (List Val)} (ho : MOut x n (Mach.getNext x rs t) t' res) :
    ∃ s', PRel x s' t' ∧ RowOut x n (Parser.getNext x rs s) s' res := by
  unfold RowOut
  have hsim := getNext_sim hx rs h
  unfold MOut at ho
  cases res with
  | ok vs =>
    simp only at ho ⊢
    rw [ho.1] at hsim
    obtain ⟨v, s', h1, h2, h3⟩ := hsim
    have := h2 vs rfl
    subst this
    exact ⟨s', h3, h1, h3.valid.trans ho.2⟩
  | error m =>
    simp only at ho ⊢
    cases hmode : x.cfg.mode with
    | throw =>
      rw [hmode] at ho
      simp only at ho
      rw [ho] at hsim
      obtain ⟨s', h1, h3⟩ := hsim
      exact ⟨s', h3, by simpa [h3.line] using h1⟩
    | string =>
      rw [hmode] at ho
      obtain ⟨o, h1, h2⟩ := ho
      rw [h1] at hsim
      obtain ⟨v, s', h3, _, h4⟩ := hsim
      refine ⟨s', h4, ?_⟩
      simp only [reduceCtorEq, if_false]
      refine ⟨v, h3, ?_, fun _ => by rw [h4.err, h2]⟩
      have : t'.valid x.cfg = false := by
        have hne := Ctx.at_ne (x := x) (n := n) (m := m)
        rw [← h2] at hne
        simp only [Mach.valid, ErrSt.valid, hmode]
        simpa using hne
      rw [h4.valid, this]
    | bool =>
      rw [hmode] at ho
      obtain ⟨o, h1, h2⟩ := ho
      rw [h1] at hsim
      obtain ⟨v, s', h3, _, h4⟩ := hsim
      refine ⟨s', h4, ?_⟩
      simp only [reduceCtorEq, if_false]
      refine ⟨v, h3, ?_, fun h => by cases h⟩
      rw [h4.valid]
      simp [Mach.valid, ErrSt.valid, hmode, h2]

end Ssp
