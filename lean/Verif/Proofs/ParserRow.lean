import Verif.Proofs.MachineKeep
import Verif.Props.Convert
/-!
# One `get_next` of a reachable parser
-/
namespace Ssp
open Spec

theorem readR_ln {x : Ctx} {a : MRd} (hie : x.cfg.ignoreEmpty = false) : (a.readR x).2.ln = a.ln + 1 := by
  unfold MRd.readR
  rw [hie]
  unfold MRd.readGo
  split <;> simp

theorem RowOut.yields_iff {x : Ctx} {n : Nat} {r : Res Parser (List Val)} {s' : Parser} {res : Except Bytes (List Val)}
    (h : RowOut x n r s' res) (vs : List Val) : Parser.Yields x r vs ↔ res = .ok vs := by
  unfold RowOut at h
  cases res with
  | ok ws =>
    constructor
    · rintro ⟨s, h1, _⟩
      rw [h.1] at h1; cases h1; rfl
    · intro hw; cases hw; exact ⟨s', h⟩
  | error m =>
    simp only at h
    constructor
    · rintro ⟨s, h1, h2⟩
      split at h
      · rw [h] at h1; cases h1
      · obtain ⟨ws, h3, h4, _⟩ := h
        rw [h3] at h1; cases h1
        rw [h4] at h2; cases h2
    · intro h; cases h

theorem RowOut.fails {x : Ctx} {n : Nat} {r : Res Parser (List Val)} {s' : Parser} {m : Bytes}
    (h : RowOut x n r s' (.error m)) : Parser.Fails x r (x.at (if x.cfg.mode = .throw then s'.line else n) m) := by
  unfold RowOut at h
  unfold Parser.Fails
  cases hm : x.cfg.mode with
  | throw => rw [hm] at h; exact ⟨s', by simpa using h⟩
  | string =>
    rw [hm] at h
    simp only [reduceCtorEq, if_false] at h ⊢
    obtain ⟨vs, h1, h2, h3⟩ := h
    exact ⟨vs, s', h1, h2, h3 trivial⟩
  | bool =>
    rw [hm] at h
    simp only [reduceCtorEq, if_false] at h ⊢
    obtain ⟨vs, h1, h2, _⟩ := h
    exact ⟨vs, s', h1, h2⟩

theorem Parser.fails_iff_not_yields {x : Ctx} {n : Nat} {r : Res Parser (List Val)} {s' : Parser} {res : Except Bytes (List Val)}
    (h : RowOut x n r s' res) : (∃ m, Parser.Fails x r m) ↔ ∀ vs, ¬ Parser.Yields x r vs := by
  constructor
  · rintro ⟨m, hf⟩ vs ⟨s, h1, h2⟩
    unfold Parser.Fails at hf
    cases hm : x.cfg.mode with
    | throw => rw [hm] at hf; obtain ⟨s1, hf⟩ := hf; rw [h1] at hf; cases hf
    | string =>
      rw [hm] at hf; obtain ⟨ws, s1, hf, hv, _⟩ := hf; rw [h1] at hf; cases hf; rw [h2] at hv; cases hv
    | bool =>
      rw [hm] at hf; obtain ⟨ws, s1, hf, hv⟩ := hf; rw [h1] at hf; cases hf; rw [h2] at hv; cases hv
  · intro hy
    cases res with
    | ok vs => exact absurd ((h.yields_iff vs).mpr rfl) (hy vs)
    | error m => exact ⟨_, h.fails⟩

/-- the machine's result for the row it stands at is that of a new converter -/
theorem rowRes_yields {x : Ctx} (hx : x.Ok) (hm : x.cfg.multiline = false) {s : Parser} {t : Mach} (hp : PRel x s t)
    {rs : List Req} (hrs : rs ≠ []) {l : Bytes} (hlook : t.rd.look = l) (vs : List Val) :
    rowOf rs t.rd.sel t.rd.ncols (t.rd.rowRes x) = .ok vs ↔ Ssp.Yields x.cfg (s.fresh x rs l) vs := by
  have hf := Parser.fresh_result hx hm hp rs l
  rcases rowOf_rowRes (x := x) (a := t.rd) hrs hp.base.selok with h | ⟨_, _, h1, m, h2⟩
  · rw [h, hlook]
    cases hres : rowOf rs t.rd.sel t.rd.ncols (splitRes x.cfg x.delim (cutNul l)) with
    | ok ws =>
      rw [hres] at hf
      constructor
      · intro h; cases h; exact hf
      · intro h; rw [yields_unique hf h]
    | error m =>
      rw [hres] at hf
      constructor
      · intro h; cases h
      · intro h; exact absurd h (fails_not_yields hf)
  · rw [hlook] at h2
    rw [h1]
    rw [h2] at hf
    constructor
    · intro h; cases h
    · intro h; exact absurd h (fails_not_yields hf)

/-- One `get_next` at the row `l`, with `ls` to follow. -/
theorem row_core {x : Ctx} (hx : x.Ok) (hm : x.cfg.multiline = false) {s : Parser} (h : Parser.Reach x s) {rs : List Req}
    (hrs : rs ≠ []) {l : Bytes} {ls : List Bytes} (hr : x.rest s.line = l :: ls) :
    ∃ s' res, RowOut x (s.line + 1) (Parser.getNext x rs s) s' res ∧
      x.rest s'.line = ls ∧ s'.eof = ls.isEmpty ∧ s.line < s'.line ∧ (x.cfg.ignoreEmpty = false → s'.line = s.line + 1) ∧
      (∀ l, s'.converter l = s.converter l) ∧ s'.rawHeader = s.rawHeader ∧
      (∀ vs, res = .ok vs ↔ Ssp.Yields x.cfg (s.fresh x rs l) vs) ∧
      (∀ m, Ssp.Fails x.cfg (s.fresh x rs l) m → cutNul l ≠ [] ∨ x.cfg.mode ≠ .string →
        ∃ m', res = .error m' ∧ (x.cfg.mode ≠ .bool → m' = m)) := by
  obtain ⟨t, hp, hi, _⟩ := h.sim (hx.live hm)
  rw [hp.line] at hr ⊢
  obtain ⟨he, hh, hlook, htodo⟩ := hi.rest_here hr
  obtain ⟨e, c', n', _, ho⟩ := getNext_row hm (rs := rs) hi he
  have hln : t.rd.ln = t.line + 1 := by have := hh.ln; unfold Mach.line; split <;> omega
  obtain ⟨r1, r2, r3, r4, r5, r6, r7, r8, r9⟩ := (hi.base.slots c' n').read
  have hrest := (hi.base.slots c' n').rest_read (t.readFrom x e { t.rd with cur := c', next := n' }) rfl
  rw [hln] at ho
  obtain ⟨s', hp', hout⟩ := getNext_parser (hx.good hm) hp ho
  refine ⟨s', rowOf rs t.rd.sel t.rd.ncols (t.rd.rowRes x), ?_, ?_, ?_, ?_, ?_, ?_, ?_, ?_, ?_⟩
  · exact hout
  · rw [hp'.line, hrest.1]; exact htodo
  · rw [hp'.eof]
    show (!(MRd.readR x { t.rd with cur := c', next := n' }).1) = _
    rw [hrest.2]
    show (!!(rowsOf _ t.rd.todo).isEmpty) = _
    rw [htodo]; simp
  · rw [hp'.line]
    show t.line < Mach.line _
    have : t.rd.ln < (t.readFrom x e { t.rd with cur := c', next := n' }).rd.ln := r9
    have := hh.ln
    rw [Mach.line_eq, Mach.line_eq]
    omega
  · intro hie
    rw [hp'.line]
    have : (t.readFrom x e { t.rd with cur := c', next := n' }).rd.ln = t.rd.ln + 1 := readR_ln hie
    rw [Mach.line_eq, this]
    omega
  · intro l
    unfold Parser.converter
    rw [hp'.base.cur.sel, hp'.base.cur.ncols, hp.base.cur.sel, hp.base.cur.ncols]
    have e1 : (t.readFrom x e { t.rd with cur := c', next := n' }).rd.sel = t.rd.sel := r6
    have e2 : (t.readFrom x e { t.rd with cur := c', next := n' }).rd.ncols = t.rd.ncols := r7
    rw [e1, e2]
  · rw [hp'.rawHeader, hp.rawHeader]; rfl
  · exact rowRes_yields hx hm hp hrs hlook
  · intro m hfm hne
    have hf := Parser.fresh_result hx hm hp rs l
    rcases rowOf_rowRes (x := x) (a := t.rd) hrs hp.base.selok with h | ⟨h0, hv, h1, m2, h2⟩
    · rw [h, hlook]
      cases hres : rowOf rs t.rd.sel t.rd.ncols (splitRes x.cfg x.delim (cutNul l)) with
      | ok ws => rw [hres] at hf; exact absurd hf (fails_not_yields hfm)
      | error m' =>
        rw [hres] at hf
        refine ⟨m', rfl, fun hb => ?_⟩
        unfold Ssp.Fails at hf hfm
        cases hmode : x.cfg.mode with
        | throw =>
          rw [hmode] at hf hfm
          obtain ⟨_, h1⟩ := hf; obtain ⟨_, h2⟩ := hfm
          rw [h1] at h2; cases h2; rfl
        | string =>
          rw [hmode] at hf hfm
          obtain ⟨_, _, h1, _, h3⟩ := hf; obtain ⟨_, _, h2, _, h4⟩ := hfm
          rw [h1] at h2; cases h2; rw [← h3, h4]
        | bool => exact absurd hmode hb
    · rw [h1]
      refine ⟨_, rfl, fun hb => ?_⟩
      rw [hlook] at h0
      rcases hne with hne | hne
      · exact absurd h0 hne
      · cases hmode : x.cfg.mode with
        | throw => rw [hmode] at hv; simp [ErrSt.valid] at hv
        | string => exact absurd hmode hne
        | bool => exact absurd hmode hb

/-- no columns can be converted to no type -/
theorem rowOf_nil {rs : List Req} (hrs : rs ≠ []) {sel : List Nat} {ncols : Nat} (hsel : ∀ i ∈ sel, i < ncols) :
    ∃ m, rowOf rs sel ncols (.ok []) = .error m := by
  simp only [rowOf, rowResult]
  split
  · exact ⟨_, by rw [if_pos (by simpa using hrs)]⟩
  · rename_i hs
    split
    · exact ⟨_, rfl⟩
    · rw [if_pos]
      · exact ⟨_, rfl⟩
      · obtain ⟨i, l, hl⟩ := List.exists_cons_of_ne_nil hs
        have := hsel i (by rw [hl]; simp)
        simp; omega

/-- A `get_next` with no row left is an error. -/
theorem over_machine {x : Ctx} (hg : x.Good) {s : Parser} {t : Mach} (hp : PRel x s t) (hi : MInv x t) {rs : List Req}
    (hr : x.rest t.line = []) (hpost : Post (MInv x) (Mach.getNext x rs t))
    (hrow : t.eof = false → MOver x t.rd → ∃ e c' n' a1 n m, MBase x a1 ∧ a1.todo = [] ∧
      MOut x n (Mach.getNext x rs t) (t.readFrom x e { a1 with cur := c', next := n' }) (.error m)) :
    ∃ s', (∀ vs, ¬ Parser.Yields x (Parser.getNext x rs s) vs) ∧ (∃ m, Parser.Fails x (Parser.getNext x rs s) m) ∧
      ((∃ e, Parser.getNext x rs s = .exc e s') ∨ ∃ vs, Parser.getNext x rs s = .ok vs s' ∧ s'.valid x.cfg = false) ∧
      s'.eof = true ∧ x.rest s'.line = [] := by
  rcases hi.rest_over hr with he | ⟨he, hov⟩
  · have hg' := getNext_eof (x := x) (rs := rs) he
    have hsim := getNext_sim hg rs hp
    split at hg'
    · rename_i hv
      rw [hg'] at hsim hpost
      obtain ⟨v, s', h1, _, h2⟩ := hsim
      have hth : x.cfg.mode ≠ .throw := by intro h; rw [h] at hv; simp [ErrSt.valid] at hv
      have hval : s'.valid x.cfg = false := by
        rw [h2.valid]
        exact ErrSt.valid_set hth Ctx.at_ne _
      have heof : s'.eof = true := by
        rw [h2.eof]
        show (!(MRd.readR x _).1) = true
        have : (MRd.readR x { t.rd with cur := t.rd.next, next := t.rd.cur }).1 = false := by
          show (MRd.readGo _ t.rd.todo _).1 = false
          rw [(hi.over he).1]; rfl
        rw [this]; rfl
      refine ⟨s', ?_, ?_, .inr ⟨v, h1, hval⟩, heof, ?_⟩
      · rintro vs ⟨s1, h3, h4⟩
        rw [h1] at h3; cases h3; rw [hval] at h4; cases h4
      · refine ⟨s'.err.msg, ?_⟩
        unfold Parser.Fails
        cases hmode : x.cfg.mode with
        | throw => exact absurd hmode hth
        | string => exact ⟨v, s', h1, hval, rfl⟩
        | bool => exact ⟨v, s', h1, hval⟩
      · rw [h2.line]; exact MInv.rest_eof hpost (h2.eof ▸ heof)
    · unfold Mach.Reports at hg'
      split at hg'
      · rename_i hth
        rw [hg'] at hsim hpost
        obtain ⟨s', h1, h2⟩ := hsim
        refine ⟨s', ?_, ⟨readOnEof x, ?_⟩, .inl ⟨_, h1⟩, h2.eof.trans he, ?_⟩
        · rintro vs ⟨s1, h3, h4⟩
          rw [h1] at h3; cases h3
        · unfold Parser.Fails; rw [hth]; exact ⟨s', h1⟩
        · rw [h2.line]; exact MInv.rest_eof hpost he
      · rename_i hth
        rw [hg'] at hsim hpost
        obtain ⟨v, s', h1, _, h2⟩ := hsim
        have hval : s'.valid x.cfg = false := by
          rw [h2.valid]
          refine ErrSt.valid_set hth ?_ _
          unfold readOnEof
          have : bs ": read on end of file" ≠ [] := by decide
          simp [this]
        refine ⟨s', ?_, ⟨readOnEof x, ?_⟩, .inr ⟨v, h1, hval⟩, h2.eof.trans he, ?_⟩
        · rintro vs ⟨s1, h3, h4⟩
          rw [h1] at h3; cases h3; rw [hval] at h4; cases h4
        · unfold Parser.Fails
          cases hmode : x.cfg.mode with
          | throw => exact absurd hmode hth
          | string => exact ⟨v, s', h1, hval, by rw [h2.err]; simp [hmode, ErrSt.set]⟩
          | bool => exact ⟨v, s', h1, hval⟩
        · rw [h2.line]; exact MInv.rest_eof hpost he
  · obtain ⟨e, c', n', a1, n, m, hb, htodo, ho⟩ := hrow he hov
    obtain ⟨s', hp', hout⟩ := getNext_parser hg hp ho
    have hrest := (hb.slots c' n').rest_read (t.readFrom x e { a1 with cur := c', next := n' }) rfl
    have hrows : rowsOf x.cfg.ignoreEmpty ({ a1 with cur := c', next := n' } : MRd).todo = [] := by
      show rowsOf _ a1.todo = []
      rw [htodo]; rfl
    rw [hrows] at hrest
    have hy : ∀ vs, ¬ Parser.Yields x (Parser.getNext x rs s) vs := by
      intro vs hy
      have := (hout.yields_iff vs).mp hy
      cases this
    refine ⟨s', hy, (Parser.fails_iff_not_yields hout).mpr hy, ?_, ?_, ?_⟩
    · unfold RowOut at hout
      simp only at hout
      split at hout
      · exact .inl ⟨_, hout⟩
      · obtain ⟨vs, h1, h2, _⟩ := hout; exact .inr ⟨vs, h1, h2⟩
    · rw [hp'.eof]
      show (!(MRd.readR x { a1 with cur := c', next := n' }).1) = true
      rw [hrest.2]; rfl
    · rw [hp'.line, hrest.1]

theorem over_core {x : Ctx} (hx : x.Ok) (hm : x.cfg.multiline = false) {s : Parser} (h : Parser.Reach x s) {rs : List Req}
    (hrs : rs ≠ []) (hr : x.rest s.line = []) :
    ∃ s', (∀ vs, ¬ Parser.Yields x (Parser.getNext x rs s) vs) ∧ (∃ m, Parser.Fails x (Parser.getNext x rs s) m) ∧
      ((∃ e, Parser.getNext x rs s = .exc e s') ∨ ∃ vs, Parser.getNext x rs s = .ok vs s' ∧ s'.valid x.cfg = false) ∧
      s'.eof = true ∧ x.rest s'.line = [] := by
  obtain ⟨t, hp, hi, _⟩ := h.sim (hx.live hm)
  rw [hp.line] at hr
  refine over_machine (hx.good hm) hp hi hr (getNext_post hm rs hi) fun he hov => ?_
  obtain ⟨e, c', n', _, ho⟩ := getNext_row hm (rs := rs) hi he
  obtain ⟨m, hres⟩ : ∃ m, rowOf rs t.rd.sel t.rd.ncols (t.rd.rowRes x) = .error m := by
    rcases rowOf_rowRes (x := x) (a := t.rd) hrs hp.base.selok with h | ⟨_, _, h1, _⟩
    · rw [h, hov.look]
      simp only [splitRes, if_true]
      exact rowOf_nil hrs hp.base.selok
    · exact ⟨_, h1⟩
  rw [hres] at ho
  exact ⟨e, c', n', t.rd, _, m, hi.base, by rw [hi.base.todo]; exact List.drop_eq_nil_of_le (Nat.le_of_lt hov.ln), ho⟩

end Ssp
