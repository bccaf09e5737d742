import Verif.Props.ParserEof
import Verif.Props.ConvertModes
/-!
# The error modes of a parser (C47)

`x.withMode m` is the same parser with another error mode.
-/
namespace Ssp
open Spec

/-- the same setup, input and delimiter with another error mode -/
def Ctx.withMode (x : Ctx) (m : ErrMode) : Ctx := { x with cfg := x.cfg.withMode m }

/-- The outcomes `o` (with `throw_on_error`) and `o'` (without) of the call `op` agree: the same values or flag, and an
exception exactly if the parser without exceptions is invalid. -/
def AgreeOn (op : Op) (o o' : Obs) : Prop :=
  match op with
  | .getNext _ => (∃ vs, o.ret = .row (some vs) ∧ o'.ret = .row (some vs) ∧ o.valid = true ∧ o'.valid = true) ∨
      ((∃ m, o.ret = .thrown m) ∧ o'.ret = .row none ∧ o'.valid = false)
  | _ => o.ret = o'.ret

theorem Cfg.WF.withMode {c : Cfg} (h : c.WF) (m : ErrMode) : (c.withMode m).WF := by
  cases h; constructor <;> assumption

theorem Ctx.Ok.withMode {x : Ctx} (h : x.Ok) (m : ErrMode) : (x.withMode m).Ok :=
  ⟨h.wf.withMode m, h.delim, h.delim0, h.fine⟩

theorem Parser.Reach.selok {x : Ctx} (hx : x.Ok) (hm : x.cfg.multiline = false) {s : Parser} (h : Parser.Reach x s) (l : Bytes) :
    (s.converter l).SelOk := by
  obtain ⟨t, hp, _⟩ := h.sim (hx.live hm)
  show ∀ i ∈ s.rd.cur.conv.mappings, i < s.rd.cur.conv.ncols
  rw [hp.base.cur.sel, hp.base.cur.ncols]
  exact hp.base.selok

/-- the row `l` in both modes -/
theorem fresh_modes {x : Ctx} (hx : x.Ok) (hm : x.cfg.multiline = false) {m1 m2 : ErrMode} {s s' : Parser}
    (h : Parser.Reach (x.withMode m1) s) (hc : ∀ l, s.converter l = s'.converter l) (rs : List Req) (l : Bytes) :
    (∃ vs, Ssp.Yields (x.withMode m1).cfg (s.fresh (x.withMode m1) rs l) vs ∧ Ssp.Yields (x.withMode m2).cfg (s'.fresh (x.withMode m2) rs l) vs) ∨
    (∃ a b, Ssp.Fails (x.withMode m1).cfg (s.fresh (x.withMode m1) rs l) a ∧ Ssp.Fails (x.withMode m2).cfg (s'.fresh (x.withMode m2) rs l) b ∧
      (¬ TwoCauses x.cfg x.delim (cutNul l) → a = b)) := by
  obtain ⟨T, hT⟩ := cutNul_append_nul l []
  have hsel := h.selok (hx.withMode m1) hm l
  have g1 : Given (x.cfg.withMode m1) x.delim (cutNul l) T (s.converter l) :=
    ⟨hx.wf.withMode m1, hx.delim, hx.delim0, ⟨hT, cutNul_nul _, rfl⟩, hsel⟩
  have g2 : Given (x.cfg.withMode m2) x.delim (cutNul l) T (s'.converter l) :=
    ⟨hx.wf.withMode m2, hx.delim, hx.delim0, ⟨hT, cutNul_nul _, rfl⟩, by rw [← hc l]; exact hsel⟩
  refine modes_outcomes g1 g2 (by rw [hc l]) (by rw [hc l]) (fun _ => ⟨?_, ?_⟩) (fun h => by rw [hm] at h; cases h) rs
  · show ({} : ErrSt).valid _ = true
    cases m1 <;> rfl
  · show ({} : ErrSt).valid _ = true
    cases m2 <;> rfl

section
variable {x : Ctx} {md : ErrMode}

/-- the calls considered -/
def Op.reads : Op → Prop
  | .getNext rs => rs ≠ []
  | .ignoreNext => True
  | _ => False

/-- the texts of the row `l` agree -/
def SameText (x : Ctx) (md : ErrMode) (l : Bytes) (o o' : Obs) : Prop :=
  x.cfg.ignoreEmpty = false → md = .string → cutNul l ≠ [] → ¬ TwoCauses x.cfg x.delim (cutNul l) →
    ∀ m, o.ret = .thrown m → o'.msg = m

theorem step_eof {x : Ctx} {op : Op} {s s' : Parser} {o : Obs} (h : Parser.step x op s = some (o, s')) : o.eof = s'.eof := by
  unfold Parser.step at h
  split at h
  · cases h; rfl
  · cases h; rfl
  · cases h
  · cases h

theorem rest_inj {x : Ctx} (hie : x.cfg.ignoreEmpty = false) {n m : Nat} {l : Bytes} {ls : List Bytes} (h1 : x.rest n = l :: ls)
    (h2 : x.rest m = l :: ls) : n = m := by
  have e : ∀ n, x.rest n = (lines x.src.data).drop n := by intro n; simp [Ctx.rest, hie]
  rw [e] at h1 h2
  have h1' := congrArg List.length h1
  have h2' := congrArg List.length h2
  simp only [List.length_drop, List.length_cons] at h1' h2'
  omega

theorem modes_step (hx : x.Ok) (hm : x.cfg.multiline = false) (hmd : md ≠ .throw) {s s' : Parser}
    (h : Parser.Reach (x.withMode .throw) s) (h' : Parser.Reach (x.withMode md) s') (hr : x.rest s.line = x.rest s'.line)
    (he : s.eof = s'.eof) (hc : x.rest s.line ≠ [] → ∀ l, s.converter l = s'.converter l) {op : Op} (ho : op.reads) :
    ∃ o o' s1 s1', Parser.step (x.withMode .throw) op s = some (o, s1) ∧ Parser.step (x.withMode md) op s' = some (o', s1') ∧
      AgreeOn op o o' ∧ o.eof = o'.eof ∧ (∀ l, (x.rest s.line)[0]? = some l → SameText x md l o o') ∧
      x.rest s1.line = x.rest s1'.line ∧ s1.eof = s1'.eof ∧ (x.rest s.line ≠ [] → ∀ l, s1.converter l = s1'.converter l) ∧
      x.rest s1.line = (x.rest s.line).tail := by
  have hxt := hx.withMode .throw
  have hxd := hx.withMode md
  have hrest : ∀ m n, (x.withMode m).rest n = x.rest n := fun _ _ => rfl
  cases op with
  | ignoreNext =>
    cases hrow : x.rest s.line with
    | nil =>
      obtain ⟨o, s1, e1, e2, e3, e4⟩ := C33_nothing_left hxt (Parser.Reach.tame (x := x.withMode .throw) hm h) hrow
      obtain ⟨o', s1', e1', e2', e3', e4'⟩ := C33_nothing_left hxd (Parser.Reach.tame (x := x.withMode md) hm h') (by rw [hrest, ← hr, hrow])
      rw [hrest] at e3 e3'
      refine ⟨o, o', s1, s1', e1, e1', ?_, ?_, ?_, by rw [e3, e3'], by rw [e4, e4', he], fun h => absurd rfl h, by rw [e3]; rfl⟩
      · show o.ret = o'.ret
        rw [e2, e2']
      · have a1 : o.eof = s1.eof := step_eof e1
        have a2 : o'.eof = s1'.eof := step_eof e1'
        rw [a1, a2, e4, e4', he]
      · intro l hl; simp at hl
    | cons l ls =>
      obtain ⟨o, s1, e1, e2, e3, e4, _, _, e5, _⟩ := C33_ignore_next_partial hxt (Parser.Reach.tame (x := x.withMode .throw) hm h) hrow
      obtain ⟨o', s1', e1', e2', e3', e4', _, _, e5', _⟩ := C33_ignore_next_partial hxd (Parser.Reach.tame (x := x.withMode md) hm h') (show (x.withMode md).rest s'.line = l :: ls by rw [hrest, ← hr, hrow])
      rw [hrest] at e3 e3'
      refine ⟨o, o', s1, s1', e1, e1', ?_, ?_, ?_, by rw [e3, e3'], by rw [e4, e4'], fun _ k => by rw [e5, e5', hc (by rw [hrow]; simp)], by rw [e3]; rfl⟩
      · show o.ret = o'.ret
        rw [e2, e2']
      · have a1 : o.eof = s1.eof := step_eof e1
        have a2 : o'.eof = s1'.eof := step_eof e1'
        rw [a1, a2, e4, e4']
      · intro l hl _ _ _ _ m hm
        rw [e2] at hm; cases hm
  | getNext rs =>
    cases hrow : x.rest s.line with
    | nil =>
      obtain ⟨s1, _, f1, f2, f3, f4⟩ := over_core hxt hm h ho hrow
      obtain ⟨s1', _, f1', f2', f3', f4'⟩ := over_core hxd hm h' ho (by rw [hrest, ← hr, hrow])
      have g1 : ∃ e, Parser.getNext (x.withMode .throw) rs s = .exc e s1 := by
        rcases f2 with g | ⟨vs, g, gv⟩
        · exact g
        · exact absurd gv (by show ¬ ErrSt.valid .throw _ = false; simp [ErrSt.valid])
      have g2 : ∃ vs, Parser.getNext (x.withMode md) rs s' = .ok vs s1' ∧ s1'.valid (x.withMode md).cfg = false := by
        rcases f2' with ⟨e, g⟩ | g
        · obtain ⟨m, hf⟩ := f1'
          unfold Parser.Fails at hf
          have : (x.withMode md).cfg.mode = md := rfl
          rw [this] at hf
          cases md with
          | throw => exact absurd rfl hmd
          | string => obtain ⟨_, _, hf, _⟩ := hf; rw [g] at hf; cases hf
          | bool => obtain ⟨_, _, hf, _⟩ := hf; rw [g] at hf; cases hf
        · exact g
      obtain ⟨e, g1⟩ := g1
      obtain ⟨vs, g2, gv⟩ := g2
      rw [hrest] at f4 f4'
      refine ⟨Parser.observe (x.withMode .throw) (.thrown e) s1, Parser.observe (x.withMode md) (.row none) s1', s1, s1', ?_, ?_, ?_, ?_, ?_, by rw [f4, f4'], by rw [f3, f3'],
        fun h => absurd rfl h, by rw [f4]; rfl⟩
      · unfold Parser.step Op.exec
        simp only
        rw [M.bind_of_exc g1]
      · unfold Parser.step Op.exec
        simp only
        rw [M.bind_of_ok g2]
        simp [gv]
      · exact .inr ⟨⟨e, rfl⟩, rfl, gv⟩
      · show s1.eof = s1'.eof
        rw [f3, f3']
      · intro l hl; simp at hl
    | cons l ls =>
      obtain ⟨s1, res, f1, f2, f3, f4, f5, f6, _, f7, f8⟩ := row_core hxt hm h ho hrow
      obtain ⟨s1', res', f1', f2', f3', f4', f5', f6', _, f7', f8'⟩ := row_core hxd hm h' ho (show (x.withMode md).rest s'.line = l :: ls by rw [hrest, ← hr, hrow])
      have h1 := f1.step
      have h1' := f1'.step
      have hmt : (x.withMode .throw).cfg.mode = .throw := rfl
      have hmm : (x.withMode md).cfg.mode = md := rfl
      rw [hrest] at f2 f2'
      refine ⟨_, _, s1, s1', h1, h1', ?_, ?_, ?_, by rw [f2, f2'], by rw [f3, f3'], fun _ k => by rw [f6, f6', hc (by rw [hrow]; simp)], by rw [f2]; rfl⟩
      · rcases fresh_modes hx hm (m1 := .throw) (m2 := md) h (hc (by rw [hrow]; simp)) rs l with ⟨vs, a, b⟩ | ⟨a, b, ha, hb, _⟩
        · have r1 := (f7 vs).mpr a
          have r2 := (f7' vs).mpr b
          subst r1 r2
          unfold RowOut at f1 f1'
          exact .inl ⟨vs, rfl, rfl, f1.2, f1'.2⟩
        · right
          have k1 : ∃ m, res = .error m := by
            cases res with
            | error m => exact ⟨m, rfl⟩
            | ok vs => exact absurd ((f7 vs).mp rfl) (fails_not_yields ha)
          have k2 : ∃ m, res' = .error m := by
            cases res' with
            | error m => exact ⟨m, rfl⟩
            | ok vs => exact absurd ((f7' vs).mp rfl) (fails_not_yields hb)
          obtain ⟨m1, rfl⟩ := k1
          obtain ⟨m2, rfl⟩ := k2
          unfold RowOut at f1'
          simp only [hmm, if_neg hmd] at f1'
          obtain ⟨vs, e1, e2, _⟩ := f1'
          refine ⟨⟨(x.withMode .throw).at s1.line m1, ?_⟩, ?_, e2⟩
          · show retOf (x.withMode .throw) s1 (.error m1) = _
            unfold retOf; simp [hmt]
          · show retOf (x.withMode md) s1' (.error m2) = _
            unfold retOf; simp [hmm, hmd]
      · show s1.eof = s1'.eof
        rw [f3, f3']
      · intro l' hl' hie hst hne htc m hthr
        simp only [List.getElem?_cons_zero, Option.some.injEq] at hl'
        subst hl'
        subst hst
        rcases fresh_modes hx hm (m1 := .throw) (m2 := .string) h (hc (by rw [hrow]; simp)) rs l with ⟨vs, a, b⟩ | ⟨a, b, ha, hb, hab⟩
        · have r1 := (f7 vs).mpr a
          subst r1
          cases hthr
        · obtain ⟨ma, rfl, hma⟩ := f8 a ha (.inl hne)
          obtain ⟨mb, rfl, hmb⟩ := f8' b hb (.inl hne)
          rw [hma (by rw [hmt]; decide)] at hthr f1
          rw [hmb (by rw [hmm]; decide)] at f1'
          rw [← hab htc] at f1'
          unfold RowOut at f1'
          simp only [hmm] at f1'
          rw [if_neg (by decide)] at f1'
          obtain ⟨vs, e1, e2, e3⟩ := f1'
          show s1'.err.msg = m
          rw [e3 trivial]
          have : retOf (x.withMode .throw) s1 (.error a) = .thrown m := hthr
          unfold retOf at this
          simp only [hmt, if_true] at this
          cases this
          rw [f5 hie, rest_inj hie (hr ▸ hrow : x.rest s'.line = l :: ls) hrow]
          rfl
  | _ => exact absurd ho (by intro h; exact h)

theorem modes_run (hx : x.Ok) (hm : x.cfg.multiline = false) (hmd : md ≠ .throw) : ∀ (ops : List Op) {s s' : Parser},
    Parser.Reach (x.withMode .throw) s → Parser.Reach (x.withMode md) s' → x.rest s.line = x.rest s'.line → s.eof = s'.eof →
    (x.rest s.line ≠ [] → ∀ l, s.converter l = s'.converter l) → (∀ op ∈ ops, op.reads) →
    ∃ os os' s1 s1', Parser.run (x.withMode .throw) ops s = some (os, s1) ∧ Parser.run (x.withMode md) ops s' = some (os', s1') ∧
      ∀ (k : Nat) (op : Op), ops[k]? = some op → ∃ o o', os[k]? = some o ∧ os'[k]? = some o' ∧ AgreeOn op o o' ∧ o.eof = o'.eof ∧
        ∀ l, (x.rest s.line)[k]? = some l → SameText x md l o o' := by
  intro ops
  induction ops with
  | nil => intro s s' _ _ _ _ _ _; exact ⟨[], [], s, s', rfl, rfl, fun k op h => by simp at h⟩
  | cons op ops ih =>
    intro s s' h h' hr he hc ho
    obtain ⟨o, o', s1, s1', h1, h1', h2, h3, h4, h5, h6, h7, h8⟩ := modes_step hx hm hmd h h' hr he hc (ho op (List.mem_cons_self ..))
    have hc1 : x.rest s1.line ≠ [] → ∀ l, s1.converter l = s1'.converter l := by
      intro hne
      apply h7
      intro h0
      rw [h8, h0] at hne
      exact hne rfl
    obtain ⟨os, os', s2, s2', g1, g1', g2⟩ := ih (h.step h1) (h'.step h1') h5 h6 hc1 fun op h => ho op (List.mem_cons_of_mem _ h)
    refine ⟨o :: os, o' :: os', s2, s2', by simp [Parser.run, h1, g1], by simp [Parser.run, h1', g1'], ?_⟩
    intro k op' hk
    cases k with
    | zero => cases hk; exact ⟨o, o', rfl, rfl, h2, h3, h4⟩
    | succ k =>
      obtain ⟨p, p', e1, e2, e3, e4, e5⟩ := g2 k op' hk
      refine ⟨p, p', e1, e2, e3, e4, fun l hl => e5 l ?_⟩
      rw [h8, List.getElem?_tail]
      exact hl

/-- C47: a parser with `throw_on_error` and one without, on the same input: for every sequence of `get_next` and
`ignore_next` calls, each call agrees: the same values, and an exception exactly if the other parser is invalid afterwards;
also `eof()` is the same.  The text of the exception is the `error_msg()` of the other parser, for every row that is not
empty, without `ignore_empty`.  Not covered for the text: lines with `TwoCauses` (`C24_text_differs`), empty lines
(`C25_stale_error`), `ignore_empty` (`C47_line_number`) and calls at the end of the input (`C47_text_at_end`). -/
theorem C47_modes_agree_partial (hx : x.Ok) (hm : x.cfg.multiline = false) (hmd : md ≠ .throw) {s s' : Parser}
    (h : Parser.Created (x.withMode .throw) s) (h' : Parser.Created (x.withMode md) s') {ops : List Op} (ho : ∀ op ∈ ops, op.reads) :
    ∃ os os' s1 s1', Parser.run (x.withMode .throw) ops s = some (os, s1) ∧ Parser.run (x.withMode md) ops s' = some (os', s1') ∧
      ∀ (k : Nat) (op : Op), ops[k]? = some op → ∃ o o', os[k]? = some o ∧ os'[k]? = some o' ∧ AgreeOn op o o' ∧ o.eof = o'.eof ∧
        ∀ l, x.rows[k]? = some l → SameText x md l o o' := by
  obtain ⟨a1, a2, a3, _⟩ := created_rest ((hx.withMode .throw).good hm) h
  obtain ⟨b1, b2, b3, _⟩ := created_rest ((hx.withMode md).good hm) h'
  have e1 : x.rest s.line = x.rows := a1
  have e2 : x.rest s'.line = x.rows := b1
  obtain ⟨os, os', s1, s1', g1, g2, g3⟩ := modes_run hx hm hmd ops h.reach h'.reach (by rw [e1, e2]) (by rw [a2, b2]; rfl)
    (fun _ l => by rw [a3, b3]) ho
  rw [e1] at g3
  exact ⟨os, os', s1, s1', g1, g2, g3⟩
end

open Demo in
/-- the three modes on the same input -/
example : (runs ct "a,1\nb,x\nc,2,3\nd,4" [.getNext [str, num], .getNext [str, num], .ignoreNext, .getNext [str, num]]).map (fun o => (o.ret, o.valid)) =
      [(.row (some [.str (bs "a"), .int 1]), true), (.thrown (bs "f 2: invalid conversion for parameter at column 2: 'x'"), true),
        (.flag true, true), (.row (some [.str (bs "d"), .int 4]), true)] ∧
    (runs cs "a,1\nb,x\nc,2,3\nd,4" [.getNext [str, num], .getNext [str, num], .ignoreNext, .getNext [str, num]]).map (fun o => (o.ret, o.valid, o.msg)) =
      [(.row (some [.str (bs "a"), .int 1]), true, []), (.row none, false, bs "f 2: invalid conversion for parameter at column 2: 'x'"),
        (.flag true, false, bs "f 2: invalid conversion for parameter at column 2: 'x'"), (.row (some [.str (bs "d"), .int 4]), true, [])] := by
  decide +kernel

open Demo in
/-- C47, found while proving `C47_modes_agree_partial`: with `ignore_empty` the exception of a bad row names the line before
the next row, that is: it also counts the blank lines behind the bad row; `error_msg()` does not. -/
theorem C47_line_number :
    (runs { ct with ignoreEmpty := true } "x\n\n\nb,2\n" [.getNext [str, num]]).map (·.ret) =
      [.thrown (bs "f 3: invalid number of columns, expected: 2, got: 1")] ∧
    (runs { cs with ignoreEmpty := true } "x\n\n\nb,2\n" [.getNext [str, num]]).map (·.msg) =
      [bs "f 1: invalid number of columns, expected: 2, got: 1"] := by
  decide +kernel

open Demo in
/-- C47: at the end of the input, behind a bad last row, the texts of exception and `error_msg()` differ. -/
theorem C47_text_at_end :
    (runs { cq with mode := .throw } "\"a" [.getNext [str], .getNext [str], .getNext [str]]).map (·.ret) =
      [.thrown (bs "f 1: unterminated quote"), .thrown (bs "f: read on end of file"), .thrown (bs "f: read on end of file")] ∧
    (runs cq "\"a" [.getNext [str], .getNext [str], .getNext [str]]).map (·.msg) =
      [bs "f 1: unterminated quote", bs "f: read on end of file", bs "f 2: unterminated quote"] := by
  decide +kernel

end Ssp
