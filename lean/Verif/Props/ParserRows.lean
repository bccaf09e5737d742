import Verif.Proofs.ParserLife
/-!
# Rows of a parser (C25, C32, C39, C52, C54)

The theorems are about the model of the parser (`Verif.Model.Parser`), for every input, every setup without multiline
and every history of calls (`Parser.Reach`: any sequence of the calls of `Op` after the constructor).  The specification
is in `Verif.Spec.Parser`: `Ctx.rest x n` are the lines of the data from line `n` on (`Verif.Spec.Lines`), `s.fresh x rs l`
is a call of `convert` on a newly made converter that is given the text `l`.
-/
namespace Ssp
open Spec

/-! ## A concrete parser for the examples -/

namespace Demo

def num : Req := .ty (.int ⟨true, 32⟩)
def str : Req := .ty .str

/-- a parser of a buffer -/
def ctx (c : Cfg) (d : String) : Ctx :=
  { cfg := c, env := ⟨fun _ i => UInt8.ofNat i, fun n => n⟩, src := .buf (some (bs d)) (bs d).length, delim := bs ",",
    fileName := bs "f", wrapped := false }

theorem ok (c : Cfg) (h : c.WF) (d : String) : (ctx c d).Ok :=
  ⟨h, (by decide : bs "," ≠ []), (by decide : NUL ∉ bs ","), rfl⟩

end Demo

/-! ## C54: no undefined behaviour -/

theorem construction_of {x : Ctx} (hx : x.Good) :
    (∀ u d, x.src = .file u d → ∃ s, Parser.newFile x {} = .ok () s) ∧
    (∀ d n, x.src = .buf (some d) n → ∃ s, Parser.newBuffer x {} = .ok () s) ∧
    (∀ n, x.src = .buf none n → (∃ s, Parser.newBuffer x {} = .ok () s) ∨ ∃ e s, Parser.newBuffer x {} = .exc e s) ∧
    (x.src = .buf none 0 → (∃ s, Parser.newFile x {} = .ok () s) ∨ ∃ e s, Parser.newFile x {} = .exc e s) := by
  have hfl : ∃ s, Parser.firstLine x {} = .ok () s := by
    have := firstLine_sim hx
    rw [firstLine_eq] at this
    obtain ⟨_, s, h, _⟩ := this
    exact ⟨s, h⟩
  have herr : ∀ m, (∃ s, (Parser.handleError x.cfg m >>= fun _ => M.modify fun s => { s with eof := true }) ({} : Parser) = .ok () s) ∨
      ∃ e s, (Parser.handleError x.cfg m >>= fun _ => M.modify fun s => { s with eof := true }) ({} : Parser) = .exc e s := by
    intro m
    unfold Parser.handleError
    cases x.cfg.mode
    · exact .inl ⟨_, rfl⟩
    · exact .inl ⟨_, rfl⟩
    · exact .inr ⟨_, _, rfl⟩
  refine ⟨?_, ?_, ?_, ?_⟩
  · intro u d h; unfold Parser.newFile; rw [h]; exact hfl
  · intro d n h; unfold Parser.newBuffer; rw [h]; exact hfl
  · intro n h; unfold Parser.newBuffer; rw [h]; exact herr _
  · intro h; unfold Parser.newFile; rw [h]; exact herr _

/-- C54: a constructor comes back - with a parser, or with an exception about a missing file or null buffer under
`throw_on_error`. -/
theorem C54_construction {x : Ctx} (hx : x.Ok) (hm : x.cfg.multiline = false) :
    (∀ u d, x.src = .file u d → ∃ s, Parser.newFile x {} = .ok () s) ∧
    (∀ d n, x.src = .buf (some d) n → ∃ s, Parser.newBuffer x {} = .ok () s) ∧
    (∀ n, x.src = .buf none n → (∃ s, Parser.newBuffer x {} = .ok () s) ∨ ∃ e s, Parser.newBuffer x {} = .exc e s) ∧
    (x.src = .buf none 0 → (∃ s, Parser.newFile x {} = .ok () s) ∨ ∃ e s, Parser.newFile x {} = .exc e s) :=
  construction_of (hx.good hm)

theorem run_length {x : Ctx} : ∀ (ops : List Op) {s s' : Parser} {os : List Obs}, Parser.run x ops s = some (os, s') →
    os.length = ops.length := by
  intro ops
  induction ops with
  | nil => intro s s' os h1; cases h1; rfl
  | cons op ops ih =>
    intro s s' os h1
    unfold Parser.run at h1
    split at h1
    · cases h1
    · split at h1
      · cases h1
      · rename_i os1 s1 h2
        cases h1
        simp [ih h2]

/-- C54: whatever calls are made on a parser, they all come back, and no call has undefined behaviour. -/
theorem C54_calls_are_defined {x : Ctx} (hx : x.Ok) (hm : x.cfg.multiline = false) {s : Parser} (h : Parser.Reach x s)
    (ops : List Op) : ∃ os s', Parser.run x ops s = some (os, s') ∧ os.length = ops.length := by
  obtain ⟨t, hp, hi, _⟩ := h.sim (hx.live hm)
  obtain ⟨os, _, s', _, h1, _⟩ := run_sim (hx.live hm) ops hp hi
  exact ⟨os, s', h1, run_length ops h1⟩

namespace Demo

/-- the parser after its constructor -/
def start (c : Cfg) (d : String) : Parser :=
  match Parser.newBuffer (ctx c d) {} with
  | .ok _ s => s
  | _ => {}

theorem created {c : Cfg} (h : c.WF) (hm : c.multiline = false) (d : String) : Parser.Created (ctx c d) (start c d) := by
  obtain ⟨s, hs⟩ := (C54_construction (ok c h d) hm).2.1 (bs d) (bs d).length rfl
  refine .buffer rfl ?_
  unfold start
  rw [hs]

/-- what the parser does when asked -/
def runs (c : Cfg) (d : String) (ops : List Op) : List Obs :=
  match Parser.run (ctx c d) ops (start c d) with
  | some (os, _) => os
  | none => []

/-- a setup with error texts -/
def cs : Cfg := { mode := .string }

theorem cs_wf : cs.WF := by constructor <;> simp [cs]

/-- a setup that throws -/
def ct : Cfg := { mode := .throw }

theorem ct_wf : ct.WF := by constructor <;> simp [ct]

/-- the same as `cs` with quotes -/
def cq : Cfg := { mode := .string, quote := some 34 }

theorem cq_wf : cq.WF := by constructor <;> simp [cq] <;> decide

end Demo

open Demo in
/-- a run of a parser: three rows, the second one bad, then the end of the file -/
example : (runs cs "a,1\nb,x\r\nc,2" [.getNext [str, num], .getNext [str, num], .getNext [str, num], .getNext [str, num]]) =
    [⟨.row (some [.str (bs "a"), .int 1]), true, [], false, 1, 4⟩,
     ⟨.row none, false, bs "f 2: invalid conversion for parameter at column 2: 'x'", false, 2, 9⟩,
     ⟨.row (some [.str (bs "c"), .int 2]), true, [], true, 3, 12⟩,
     ⟨.row none, false, bs "f: read on end of file", true, 3, 12⟩] := by
  decide +kernel

/-! ## C25: `get_next` returns the rows in order -/

section
variable {x : Ctx} {s : Parser} {rs : List Req} {l : Bytes} {ls : List Bytes}

/-- C25: at any time, when `l` is the next row, `get_next` yields exactly the values a newly made converter yields for
the text `l`; it reports an error iff that converter yields none. -/
theorem C25_row (hx : x.Ok) (hm : x.cfg.multiline = false) (h : Parser.Reach x s) (hrs : rs ≠ [])
    (hr : x.rest s.line = l :: ls) :
    (∀ vs, Parser.Yields x (Parser.getNext x rs s) vs ↔ Ssp.Yields x.cfg (s.fresh x rs l) vs) ∧
    ((∃ m, Parser.Fails x (Parser.getNext x rs s) m) ↔ ∀ vs, ¬ Ssp.Yields x.cfg (s.fresh x rs l) vs) := by
  obtain ⟨s', res, h1, _, _, _, _, _, _, h2, _⟩ := row_core hx hm h hrs hr
  have hy : ∀ vs, Parser.Yields x (Parser.getNext x rs s) vs ↔ Ssp.Yields x.cfg (s.fresh x rs l) vs :=
    fun vs => (h1.yields_iff vs).trans (h2 vs)
  refine ⟨hy, (Parser.fails_iff_not_yields h1).trans ?_⟩
  exact forall_congr' fun vs => not_congr (hy vs)

/-- C25: the error of a row is the error of the newly made converter, preceded by the name of the file and the number of
the line (counted from 1).  Not covered here: with `string_error` the error of an empty line may be an older one (see
`C25_stale_error`), and with `ignore_empty` and `throw_on_error` the number is that of the line before the next row (see
`C47_line_number`). -/
theorem C25_error (hx : x.Ok) (hm : x.cfg.multiline = false) (h : Parser.Reach x s) (hrs : rs ≠ [])
    (hr : x.rest s.line = l :: ls) {m : Bytes} (hf : Ssp.Fails x.cfg (s.fresh x rs l) m)
    (hne : cutNul l ≠ [] ∨ x.cfg.mode ≠ .string) (hie : x.cfg.ignoreEmpty = false ∨ x.cfg.mode ≠ .throw) :
    Parser.Fails x (Parser.getNext x rs s) (x.at (s.line + 1) m) := by
  obtain ⟨s', res, h1, _, _, _, hln, _, _, h2, h3⟩ := row_core hx hm h hrs hr
  obtain ⟨m', rfl, hm'⟩ := h3 m hf hne
  have := h1.fails
  cases hmode : x.cfg.mode with
  | bool =>
    unfold Parser.Fails at this ⊢
    rw [hmode] at this ⊢
    exact this
  | string => rw [hmode] at this; rw [hm' (by simp [hmode])] at this; simpa using this
  | throw =>
    rw [hmode] at this
    rw [hm' (by simp [hmode])] at this
    rw [← hln (hie.resolve_right (by simp [hmode]))]
    simpa using this

/-- C25: afterwards the parser stands at the next row, `eof()` holds iff there is none, and the column selection is the
same. -/
theorem C25_next_row (hx : x.Ok) (hm : x.cfg.multiline = false) (h : Parser.Reach x s) (hrs : rs ≠ [])
    (hr : x.rest s.line = l :: ls) :
    ∃ o s', Parser.step x (.getNext rs) s = some (o, s') ∧ x.rest s'.line = ls ∧ s'.eof = ls.isEmpty ∧
      (x.cfg.ignoreEmpty = false → s'.line = s.line + 1) ∧ ∀ t, s'.converter t = s.converter t := by
  obtain ⟨s', res, h1, h2, h3, _, h5, h6, _⟩ := row_core hx hm h hrs hr
  exact ⟨_, s', h1.step, h2, h3, h5, h6⟩

/-- C25: the k-th `get_next` after construction converts the k-th row of the input, whatever types are asked for in
this and the other calls, and whatever errors are met; calls after the last row are errors, and `eof()` holds from the
last row on. -/
theorem C25_sequence (hx : x.Ok) (hm : x.cfg.multiline = false) (h : Parser.Created x s) {reqs : List (List Req)}
    (hne : ∀ rs ∈ reqs, rs ≠ []) :
    ∃ os s', Parser.run x (reqs.map .getNext) s = some (os, s') ∧
      ∀ k rs, reqs[k]? = some rs → ∃ o, os[k]? = some o ∧ o.eof = decide (x.rows.length ≤ k + 1) ∧
        match x.rows[k]? with
        | some l => Delivers x o (Conv.convertLine x.cfg rs x.delim { spl := { mem := l ++ [NUL] } })
        | none => NoRow o := by
  obtain ⟨h1, _, h3, _⟩ := created_rest (hx.good hm) h
  obtain ⟨os, s', h4, h5⟩ := rows_run hx hm reqs h.reach hne
  refine ⟨os, s', h4, ?_⟩
  intro k rs hk
  have := h5 k rs hk
  rw [h1] at this
  obtain ⟨o, e1, e2, e3⟩ := this
  refine ⟨o, e1, e2, ?_⟩
  cases hrow : x.rows[k]? with
  | none => rw [hrow] at e3; exact e3
  | some l =>
    rw [hrow] at e3
    simp only [Parser.fresh, h3] at e3
    exact e3

/-- the rows are the lines of the data -/
theorem C25_rows_are_the_lines (h1 : x.cfg.ignoreEmpty = false) (h2 : x.cfg.ignoreHeader = false) :
    x.rows = lines x.src.data := by
  unfold Ctx.rows Ctx.rest
  simp [h1, h2]

end

open Demo in
/-- the hypotheses of `C25_row`, `C25_error` and `C25_next_row` are met: a parser at its second row, after an error -/
example : ∃ s, Parser.Reach (ctx cs "x\nb,y\nc,2") s ∧ (ctx cs "x\nb,y\nc,2").rest s.line = [bs "b,y", bs "c,2"] ∧
    Ssp.Fails cs (s.fresh (ctx cs "x\nb,y\nc,2") [str, num] (bs "b,y")) (bs "invalid conversion for parameter at column 2: 'y'") := by
  obtain ⟨os, s, h, _⟩ := C54_calls_are_defined (ok cs cs_wf "x\nb,y\nc,2") rfl (created cs_wf rfl "x\nb,y\nc,2").reach
    [.getNext [str, num]]
  refine ⟨s, (created cs_wf rfl _).reach.run h, ?_, ?_⟩
  · have : some s.line = some 1 := by
      have h' := congrArg (Option.map fun p : List Obs × Parser => p.2.line) h
      simp only [Option.map_some] at h'
      rw [← h']; decide +kernel
    rw [Option.some.inj this]
    decide +kernel
  · have h' := congrArg (Option.map fun p : List Obs × Parser => p.2.converter (bs "b,y")) h
    simp only [Option.map_some] at h'
    have : some (s.converter (bs "b,y")) = some { spl := { mem := bs "b,y" ++ [NUL] } } := by
      rw [← h']; decide +kernel
    have hc := Option.some.inj this
    unfold Parser.fresh
    rw [hc]
    exact Res.ok_of (P := fun _ s => Conv.valid _ s = false ∧ s.err.msg = _) (by decide +kernel)

open Demo in
/-- C25, found while proving `C25_error`: with `string_error` an empty line is reported with the error of the row two
lines before it (here "unterminated quote", where a newly made converter says that the number of columns is wrong). -/
theorem C25_stale_error :
    (runs cq "\"a,1\nb,2\n\nc,3" [.getNext [str, num], .getNext [str, num], .getNext [str, num]]).map (fun o => (o.valid, o.msg)) =
      [(false, bs "f 1: unterminated quote"), (true, []), (false, bs "f 3: unterminated quote")] ∧
    Ssp.Fails cq (Conv.convertLine cq [str, num] (bs ",") { spl := { mem := [NUL] } })
      (bs "invalid number of columns, expected: 2, got: 0") := by
  refine ⟨by decide +kernel, _, _, rfl, ?_, ?_⟩ <;> decide +kernel

open Demo in
example : (ctx cs "a,1\nb,x\r\n\nc,2").rows = [bs "a,1", bs "b,x", [], bs "c,2"] := by decide +kernel

/-! ## C52: an embedded NUL ends the row -/

theorem cutNul_idem (l : Bytes) : cutNul (cutNul l) = cutNul l := by
  induction l with
  | nil => rfl
  | cons b l ih =>
    unfold cutNul at *
    rw [List.takeWhile_cons]
    split
    · rename_i h; rw [List.takeWhile_cons_of_pos (by simpa using h), ih]
    · rfl

theorem cutNul_of_split {a b : Bytes} (h : NUL ∉ a) : cutNul (a ++ NUL :: b) = a := by
  unfold cutNul
  rw [List.takeWhile_append_of_pos]
  · simp
  · intro c hc; simp; rintro rfl; exact h hc

/-- C52: when the next row is `a`, a NUL byte and more, `get_next` yields what a newly made converter yields for `a`
alone, and fails iff that one fails; the error text is that for `a` as well. -/
theorem C52_nul_ends_row {x : Ctx} (hx : x.Ok) (hm : x.cfg.multiline = false) {s : Parser} (h : Parser.Reach x s)
    {rs : List Req} (hrs : rs ≠ []) {a b : Bytes} {ls : List Bytes} (ha : NUL ∉ a) (hr : x.rest s.line = (a ++ NUL :: b) :: ls) :
    (∀ vs, Parser.Yields x (Parser.getNext x rs s) vs ↔ Ssp.Yields x.cfg (s.fresh x rs a) vs) ∧
    ((∃ m, Parser.Fails x (Parser.getNext x rs s) m) ↔ ∀ vs, ¬ Ssp.Yields x.cfg (s.fresh x rs a) vs) ∧
    (∀ m, Ssp.Fails x.cfg (s.fresh x rs a) m → a ≠ [] ∨ x.cfg.mode ≠ .string →
      x.cfg.ignoreEmpty = false ∨ x.cfg.mode ≠ .throw →
      Parser.Fails x (Parser.getNext x rs s) (x.at (s.line + 1) m)) := by
  obtain ⟨t, hp, _, _⟩ := h.sim (hx.live hm)
  have h1 := Parser.fresh_result hx hm hp rs (a ++ NUL :: b)
  have h2 := Parser.fresh_result hx hm hp rs a
  have hca : cutNul a = a := by
    have := cutNul_of_split (b := []) ha
    rw [← this, cutNul_idem]
  rw [cutNul_of_split ha] at h1
  rw [hca] at h2
  obtain ⟨h3, h4⟩ := C25_row hx hm h hrs hr
  have hye : ∀ vs, Ssp.Yields x.cfg (s.fresh x rs (a ++ NUL :: b)) vs ↔ Ssp.Yields x.cfg (s.fresh x rs a) vs := by
    intro vs
    cases hres : rowOf rs t.rd.sel t.rd.ncols (splitRes x.cfg x.delim a) with
    | ok ws =>
      rw [hres] at h1 h2
      exact ⟨fun h => yields_unique h1 h ▸ h2, fun h => yields_unique h2 h ▸ h1⟩
    | error m =>
      rw [hres] at h1 h2
      exact ⟨fun h => absurd h (fails_not_yields h1), fun h => absurd h (fails_not_yields h2)⟩
  refine ⟨fun vs => (h3 vs).trans (hye vs), h4.trans (forall_congr' fun vs => not_congr (hye vs)), ?_⟩
  intro m hf hne hie
  refine C25_error hx hm h hrs hr ?_ (by rwa [cutNul_of_split ha]) hie
  cases hres : rowOf rs t.rd.sel t.rd.ncols (splitRes x.cfg x.delim a) with
  | ok ws => rw [hres] at h2; exact absurd h2 (fails_not_yields hf)
  | error m' =>
    rw [hres] at h1 h2
    unfold Ssp.Fails at hf h1 h2 ⊢
    cases hmode : x.cfg.mode with
    | throw =>
      rw [hmode] at hf h1 h2
      obtain ⟨_, e1⟩ := hf; obtain ⟨_, e2⟩ := h2
      rw [e1] at e2; cases e2; exact h1
    | string =>
      rw [hmode] at hf h1 h2
      obtain ⟨_, _, e1, _, e3⟩ := hf; obtain ⟨_, _, e2, _, e4⟩ := h2
      rw [e1] at e2; cases e2; rw [e3] at e4; rw [e4]; exact h1
    | bool => rw [hmode] at h1; exact h1

open Demo in
/-- a row with a NUL byte inside -/
example : ((ctx cs "a,1\x00junk\nb").rest (start cs "a,1\x00junk\nb").line = [bs "a,1" ++ NUL :: bs "junk", bs "b"]) ∧
    (runs cs "a,1\x00junk\nb" [.getNext [str, num]]).map (·.ret) = [.row (some [.str (bs "a"), .int 1])] := by
  decide +kernel

/-! ## C39: a row is judged by its own text -/

theorem fresh_congr {x x' : Ctx} (hc : x'.cfg = x.cfg) (hd : x'.delim = x.delim) {s s' : Parser} {l : Bytes}
    (hs : s'.converter l = s.converter l) (rs : List Req) : s'.fresh x' rs l = s.fresh x rs l := by
  unfold Parser.fresh; rw [hc, hd, hs]

/-- C39: two parsers with the same setup and delimiter and the same column selection, at a row with the same text, deliver
the same - whatever their inputs are otherwise, and whatever happened to either of them before. -/
theorem C39_row_alone {x x' : Ctx} (hx : x.Ok) (hx' : x'.Ok) (hm : x.cfg.multiline = false) (hc : x'.cfg = x.cfg)
    (hd : x'.delim = x.delim) {s s' : Parser} (h : Parser.Reach x s) (h' : Parser.Reach x' s') {rs : List Req} (hrs : rs ≠ [])
    {l : Bytes} {ls ls' : List Bytes} (hr : x.rest s.line = l :: ls) (hr' : x'.rest s'.line = l :: ls')
    (hsel : ∀ l, s'.converter l = s.converter l) :
    (∀ vs, Parser.Yields x (Parser.getNext x rs s) vs ↔ Parser.Yields x' (Parser.getNext x' rs s') vs) ∧
    ((∃ m, Parser.Fails x (Parser.getNext x rs s) m) ↔ ∃ m, Parser.Fails x' (Parser.getNext x' rs s') m) := by
  have h1 := C25_row hx hm h hrs hr
  have h2 := C25_row hx' (by rw [hc]; exact hm) h' hrs hr'
  rw [fresh_congr hc hd (hsel l), hc] at h2
  exact ⟨fun vs => (h1.1 vs).trans (h2.1 vs).symm, h1.2.trans h2.2.symm⟩

/-- C39: replacing one row of the input by another changes nothing about the other rows. -/
theorem C39_other_rows {x x' : Ctx} (hx : x.Ok) (hx' : x'.Ok) (hm : x.cfg.multiline = false) (hc : x'.cfg = x.cfg)
    (hd : x'.delim = x.delim) {s s' : Parser} (h : Parser.Created x s) (h' : Parser.Created x' s') {p q : List Bytes}
    {b g : Bytes} (hr : x.rows = p ++ b :: q) (hr' : x'.rows = p ++ g :: q) {reqs : List (List Req)}
    (hne : ∀ rs ∈ reqs, rs ≠ []) :
    ∃ os os' s1 s1', Parser.run x (reqs.map .getNext) s = some (os, s1) ∧ Parser.run x' (reqs.map .getNext) s' = some (os', s1') ∧
      ∀ k, k ≠ p.length → k < reqs.length → ∃ o o', os[k]? = some o ∧ os'[k]? = some o' ∧ o.eof = o'.eof ∧
        (∀ vs, o.ret = .row (some vs) ↔ o'.ret = .row (some vs)) ∧ (NoRow o ↔ NoRow o') := by
  obtain ⟨os, s1, h1, h2⟩ := C25_sequence hx hm h hne
  obtain ⟨os', s1', h1', h2'⟩ := C25_sequence hx' (by rw [hc]; exact hm) h' hne
  refine ⟨os, os', s1, s1', h1, h1', ?_⟩
  intro k hk hlt
  obtain ⟨o, e1, e2, e3⟩ := h2 k reqs[k] (List.getElem?_eq_getElem hlt)
  obtain ⟨o', e1', e2', e3'⟩ := h2' k reqs[k] (List.getElem?_eq_getElem hlt)
  have hl : x'.rows.length = x.rows.length := by rw [hr, hr']; simp
  have hk' : x'.rows[k]? = x.rows[k]? := by
    rw [hr, hr']
    by_cases h : k < p.length
    · rw [List.getElem?_append_left h, List.getElem?_append_left h]
    · rw [List.getElem?_append_right (by omega), List.getElem?_append_right (by omega)]
      obtain ⟨j, hj⟩ : ∃ j, k - p.length = j + 1 := ⟨k - p.length - 1, by omega⟩
      rw [hj]; rfl
  rw [hk'] at e3'
  refine ⟨o, o', e1, e1', by rw [e2, e2', hl], ?_⟩
  cases hrow : x.rows[k]? with
  | none =>
    rw [hrow] at e3 e3'
    refine ⟨fun vs => ⟨fun h => ?_, fun h => ?_⟩, fun _ => e3', fun _ => e3⟩
    · rcases e3 with e3 | ⟨_, e3⟩
      · rw [e3.1] at h; cases h
      · rw [e3] at h; cases h
    · rcases e3' with e3 | ⟨_, e3⟩
      · rw [e3.1] at h; cases h
      · rw [e3] at h; cases h
  | some l =>
    rw [hrow] at e3 e3'
    simp only at e3 e3'
    rw [hc, hd] at e3'
    have hv : ∀ vs, o.ret = .row (some vs) ↔ o'.ret = .row (some vs) := fun vs => by
      rw [e3.1 vs, e3'.1 vs, hc]
    have hno : ∀ {o : Obs}, NoRow o → ∀ vs, o.ret ≠ .row (some vs) := by
      intro o h vs hr
      rcases h with h | ⟨_, h⟩
      · rw [h.1] at hr; cases hr
      · rw [h] at hr; cases hr
    have hnd : ∀ {x : Ctx} {o : Obs} {r : Res Conv (List Val)}, Delivers x o r → (∀ vs, o.ret ≠ .row (some vs)) → NoRow o := by
      intro x o r hd hn
      rcases hd.2 with ⟨vs, h⟩ | h
      · exact absurd ((hd.1 vs).mpr h) (hn vs)
      · exact h
    refine ⟨hv, fun h => hnd e3' fun vs => ?_, fun h => hnd e3 fun vs => ?_⟩
    · rw [Ne, ← hv vs]; exact hno h vs
    · rw [Ne, hv vs]; exact hno h vs

open Demo in
/-- inputs that differ in one bad row -/
example : (ctx cq "a,1\n\"\nc,2").rows = [bs "a,1"] ++ bs "\"" :: [bs "c,2"] ∧
    (ctx cq "a,1\nb,5\nc,2").rows = [bs "a,1"] ++ bs "b,5" :: [bs "c,2"] := by
  decide +kernel

/-! ## C32: `ignore_empty` -/

/-- the data without its empty lines -/
def withoutEmptyLines (d : Bytes) : Bytes := ((rawLines d).filter fun l => !(chop l).isEmpty).flatten

/-- a list of raw lines: every one ends with its only LF, except that the last one may have none -/
inductive RawList : List Bytes → Prop
  | nil : RawList []
  | last {l : Bytes} : l ≠ [] → LF ∉ l → RawList [l]
  | cons {l : Bytes} {ls : List Bytes} : LF ∉ l → RawList ls → RawList ((l ++ [LF]) :: ls)

theorem rawLines_rawList (d : Bytes) : RawList (rawLines d) := by
  induction d with
  | nil => exact .nil
  | cons b t ih =>
    unfold rawLines
    split
    · rename_i h; subst h; exact .cons (l := []) (by simp) ih
    · rename_i hb
      generalize rawLines t = ls at ih
      cases ih with
      | nil => exact .last (by simp) (by simp; exact fun h => hb h.symm)
      | last h1 h2 => exact .last (by simp) (by simp; exact ⟨fun h => hb h.symm, h2⟩)
      | @cons l ls h1 h2 => exact .cons (l := b :: l) (by simp; exact ⟨fun h => hb h.symm, h1⟩) h2

theorem rawLines_line {l t : Bytes} (h : LF ∉ l) : rawLines (l ++ LF :: t) = (l ++ [LF]) :: rawLines t := by
  induction l with
  | nil => simp [rawLines]
  | cons b l ih =>
    have hb : b ≠ LF := by rintro rfl; simp at h
    have := ih (fun h' => h (by simp [h']))
    simp only [List.cons_append]
    rw [rawLines, if_neg hb, this]

theorem rawLines_last {l : Bytes} (h0 : l ≠ []) (h : LF ∉ l) : rawLines l = [l] := by
  induction l with
  | nil => exact absurd rfl h0
  | cons b l ih =>
    have hb : b ≠ LF := by rintro rfl; simp at h
    rw [rawLines, if_neg hb]
    cases l with
    | nil => simp [rawLines]
    | cons c l => rw [ih (by simp) (fun h' => h (by simp [h']))]

theorem RawList.flatten {ls : List Bytes} (h : RawList ls) : rawLines ls.flatten = ls := by
  induction h with
  | nil => rfl
  | last h1 h2 => simpa using rawLines_last h1 h2
  | @cons l ls h1 h2 ih =>
    have : ((l ++ [LF]) :: ls).flatten = l ++ LF :: ls.flatten := by simp
    rw [this, rawLines_line h1, ih]

theorem RawList.filter {ls : List Bytes} (h : RawList ls) (p : Bytes → Bool) : RawList (ls.filter p) := by
  induction h with
  | nil => exact .nil
  | last h1 h2 =>
    rw [List.filter_cons]
    split
    · exact .last h1 h2
    · exact .nil
  | cons h1 h2 ih =>
    rw [List.filter_cons]
    split
    · exact .cons h1 ih
    · exact ih

theorem lines_withoutEmptyLines (d : Bytes) : lines (withoutEmptyLines d) = (lines d).filter fun l => !l.isEmpty := by
  unfold lines withoutEmptyLines
  rw [((rawLines_rawList d).filter _).flatten, List.filter_map]
  rfl

/-- a newly made converter does not care about `ignore_empty` -/
theorem yields_ignoreEmpty {c c' : Cfg} (hw : c.WF) (hw' : c'.WF) {delim : Bytes} (hd : delim ≠ []) (hd0 : NUL ∉ delim)
    (hm : c.multiline = false) (hc : c = { c' with ignoreEmpty := true }) (rs : List Req) (l : Bytes) (vs : List Val) :
    Ssp.Yields c (Conv.convertLine c rs delim { spl := { mem := l ++ [NUL] } }) vs ↔
    Ssp.Yields c' (Conv.convertLine c' rs delim { spl := { mem := l ++ [NUL] } }) vs := by
  obtain ⟨T, hT⟩ := cutNul_append_nul l []
  have hs : Holds ({ mem := l ++ [NUL] } : Spl) (cutNul l) T := ⟨hT, cutNul_nul _, rfl⟩
  have hv : ∀ m, ({} : ErrSt).valid m = true := by intro m; cases m <;> rfl
  have hsel : ({ spl := { mem := l ++ [NUL] } } : Conv).SelOk := by intro i h; cases h
  have h1 := Conv.convertLine_spec hw (rs := rs) (s := { spl := { mem := l ++ [NUL] } }) hd hd0 hs hsel
    (fun h => by rw [hm] at h; cases h) (fun _ => hv _)
  have hm' : c'.multiline = false := by rw [hc] at hm; exact hm
  have h2 := Conv.convertLine_spec hw' (rs := rs) (s := { spl := { mem := l ++ [NUL] } }) hd hd0 hs hsel
    (fun h => by rw [hm'] at h; cases h) (fun _ => hv _)
  have he : ∀ ll sel n, Conv.lineRes c delim rs sel n ll = Conv.lineRes c' delim rs sel n ll := by
    intro ll sel n
    have := decodeRow_congr (c := c') (c' := c) (by subst hc; exact ⟨rfl, rfl, rfl, rfl⟩) hd ll
    unfold Conv.lineRes splitRes
    rw [this]
    subst hc
    rfl
  rw [he] at h1
  generalize Conv.lineRes c' delim rs _ _ (cutNul l) = r at h1 h2
  cases r with
  | ok ws => exact ⟨fun h => yields_unique h1 h ▸ h2, fun h => yields_unique h2 h ▸ h1⟩
  | error m => exact ⟨fun h => absurd h (fails_not_yields h1), fun h => absurd h (fails_not_yields h2)⟩

/-- C32: a parser with `ignore_empty` and a parser without it on the same data without its empty lines deliver the same
for every sequence of `get_next`, and reach the end of the file at the same call. -/
theorem C32_ignore_empty {x x' : Ctx} (hx : x.Ok) (hx' : x'.Ok) (hm : x.cfg.multiline = false)
    (hc : x.cfg = { x'.cfg with ignoreEmpty := true }) (hie : x'.cfg.ignoreEmpty = false) (hd : x'.delim = x.delim)
    (hdata : x'.src.data = withoutEmptyLines x.src.data) {s s' : Parser} (h : Parser.Created x s)
    (h' : Parser.Created x' s') {reqs : List (List Req)} (hne : ∀ rs ∈ reqs, rs ≠ []) :
    x.rows = x'.rows ∧
    ∃ os os' s1 s1', Parser.run x (reqs.map .getNext) s = some (os, s1) ∧ Parser.run x' (reqs.map .getNext) s' = some (os', s1') ∧
      ∀ k, k < reqs.length → ∃ o o', os[k]? = some o ∧ os'[k]? = some o' ∧ o.eof = o'.eof ∧
        (∀ vs, o.ret = .row (some vs) ↔ o'.ret = .row (some vs)) := by
  have hm' : x'.cfg.multiline = false := by rw [hc] at hm; exact hm
  have hrows : x.rows = x'.rows := by
    unfold Ctx.rows Ctx.rest
    rw [hdata, lines_withoutEmptyLines, hie, hc]
    simp
  obtain ⟨os, s1, h1, h2⟩ := C25_sequence hx hm h hne
  obtain ⟨os', s1', h1', h2'⟩ := C25_sequence hx' hm' h' hne
  refine ⟨hrows, os, os', s1, s1', h1, h1', ?_⟩
  intro k hlt
  obtain ⟨o, e1, e2, e3⟩ := h2 k reqs[k] (List.getElem?_eq_getElem hlt)
  obtain ⟨o', e1', e2', e3'⟩ := h2' k reqs[k] (List.getElem?_eq_getElem hlt)
  refine ⟨o, o', e1, e1', by rw [e2, e2', hrows], ?_⟩
  rw [← hrows] at e3'
  cases hrow : x.rows[k]? with
  | none =>
    rw [hrow] at e3 e3'
    intro vs
    constructor
    · intro h
      rcases e3 with e3 | ⟨_, e3⟩
      · rw [e3.1] at h; cases h
      · rw [e3] at h; cases h
    · intro h
      rcases e3' with e3 | ⟨_, e3⟩
      · rw [e3.1] at h; cases h
      · rw [e3] at h; cases h
  | some l =>
    rw [hrow] at e3 e3'
    simp only at e3 e3'
    intro vs
    rw [e3.1 vs, e3'.1 vs, hd]
    exact yields_ignoreEmpty hx.wf hx'.wf hx.delim hx.delim0 hm hc reqs[k] l vs

open Demo in
example : withoutEmptyLines (bs "\na,1\n\r\n\nb,2") = bs "a,1\nb,2" ∧
    (runs { cs with ignoreEmpty := true } "\na,1\n\r\n\nb,2" [.getNext [str, num], .getNext [str, num]]).map (fun o => (o.ret, o.eof)) =
      (runs cs "a,1\nb,2" [.getNext [str, num], .getNext [str, num]]).map (fun o => (o.ret, o.eof)) := by
  decide +kernel

end Ssp
