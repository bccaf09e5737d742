import Verif.Proofs.MachineChain
import Verif.Props.ParserRows
import Verif.Proofs.MachineTotal
/-!
# End of file, positions, skipped rows, iteration (C28, C29, C30, C33, C42)
-/
namespace Ssp
open Spec

/-! ## C28: end of file is final -/

theorem mexec_eof {x : Ctx} (hx : x.Ok) (op : Op) {t : Mach} (h : MInv x t) (he : t.eof = true) :
    Post (fun t' => t'.eof = true) (op.mexec x t) := by
  cases op with
  | getNext rs =>
    simp only [Op.mexec]
    have hr : ∀ a e, a.todo = [] → (t.readFrom x e a).eof = true := by
      intro a e ha
      show (!(MRd.readGo _ a.todo _).1) = true
      rw [ha]; rfl
    have := getNext_eof (x := x) (rs := rs) he
    split at this
    · rw [M.bind_of_ok this]
      simp only [M.get_bind]
      have h1 := hr { t.rd with cur := t.rd.next, next := t.rd.cur }
        (t.err.set x.cfg.mode (x.at t.rd.ln t.rd.next.err.msg)) (h.over he).1
      split <;> exact h1
    · unfold Mach.Reports at this
      split at this
      · rw [M.bind_of_exc this]; exact he
      · rw [M.bind_of_ok this]
        simp only [M.get_bind]
        split <;> exact he
  | ignoreNext =>
    simp only [Op.mexec]
    rw [M.bind_of_ok (onRd_of_ok (MRd.readNext_eq x _))]
    exact he
  | header => exact Post.bind ((getHeader_post hx t).mono fun t' hs => hs.eof.trans he) (fun _ _ h => h) fun _ h => h
  | rawHeader => exact he
  | fieldExists f =>
    exact Post.bind ((fieldExists_post hx f t).mono fun t' hs => hs.eof.trans he) (fun _ _ h => h) fun _ h => h
  | useFields fs =>
    refine Post.bind (P := fun t' => t'.eof = true) ?_ (fun _ _ h => h) fun _ h => h
    unfold Mach.useFields Mach.clearError
    simp only [M.modify_bind]
    refine Post.bind ((splitHeaderDataIf_post hx (by intro h; simp at h; simpa using h.1)).mono
      fun t' hs => (hs.eof.trans he : t'.eof = true)) ?_ fun _ h => h
    intro _ t he
    simp only [M.get_bind]
    split
    · exact he
    · split
      · exact Post.of_reports (handleError_reports x _ t) he he
      · refine Post.bind ((mapFields_post fs fs t).mono ?_) ?_ fun _ h => h
        · rintro t' ⟨e, rfl⟩; exact he
        · intro o t he
          cases o with
          | none => exact he
          | some sel =>
            simp only [Mach.setMapping, M.modify_bind, M.get_bind]
            split
            · rw [M.bind_of_ok (onRd_of_ok (MRd.readNext_eq x _))]
              exact he
            · exact he
  | chain a as =>
    simp only [Op.mexec, M.get_bind, he, if_true]
    exact he

/-- C28: once `eof()` is true it stays true under every sequence of calls, and every `get_next` is an error that returns no
values. -/
theorem C28_eof_is_final {x : Ctx} (hx : x.Ok) (hm : x.cfg.multiline = false) : ∀ (ops : List Op) {s : Parser},
    Parser.Reach x s → s.eof = true → (∀ rs, .getNext rs ∈ ops → rs ≠ []) →
    ∃ os s', Parser.run x ops s = some (os, s') ∧ s'.eof = true ∧ (∀ o ∈ os, o.eof = true) ∧
      ∀ (k : Nat) (rs : List Req), ops[k]? = some (.getNext rs) → ∃ o, os[k]? = some o ∧ NoRow o := by
  intro ops
  induction ops with
  | nil => intro s _ he _; exact ⟨[], s, rfl, he, by simp, by simp⟩
  | cons op ops ih =>
    intro s h he hne
    obtain ⟨t, hp, hi, _⟩ := h.sim (hx.live hm)
    obtain ⟨o, o', s1, t1, h1, h2, h3, h4, _⟩ := step_sim (hx.live hm) op hp hi
    have he1 : s1.eof = true := by
      rw [h3.eof]
      have := mexec_eof hx op hi (hp.eof ▸ he)
      unfold Mach.step at h2
      cases hop : op.mexec x t with
      | ok r t' => rw [hop] at h2 this; cases h2; exact this
      | exc e t' => rw [hop] at h2 this; cases h2; exact this
      | ub => rw [hop] at h2; cases h2
      | nofuel => rw [hop] at h2; cases h2
    obtain ⟨os, s', h5, h6, h7, h8⟩ := ih (h.step h1) he1 (fun rs h => hne rs (by simp [h]))
    have ho : o.eof = true := by
      have : o.eof = s1.eof := by
        unfold Parser.step at h1
        split at h1 <;> first | (cases h1; rfl) | cases h1
      rw [this, he1]
    refine ⟨o :: os, s', by simp [Parser.run, h1, h5], h6, ?_, ?_⟩
    · intro o1 hm1
      rcases List.mem_cons.mp hm1 with rfl | hm1
      · exact ho
      · exact h7 _ hm1
    · intro k rs hk
      cases k with
      | zero =>
        cases hk
        have hr : x.rest s.line = [] := by rw [hp.line]; exact hi.rest_eof (hp.eof ▸ he)
        obtain ⟨s2, _, _, g1, _⟩ := over_core hx hm h (hne rs (by simp)) hr
        obtain ⟨o2, g2, _, g3⟩ := step_of_error g1
        rw [g2] at h1
        cases h1
        exact ⟨o, rfl, g3⟩
      | succ k => exact h8 k rs hk

open Demo in
/-- C28: calls at the end of the file.  The error text is not always "read on end of file": the error of the last row comes
back at every other call. -/
example : (runs cs "a,x" [.getNext [str, num], .getNext [str, num], .getNext [str, num], .ignoreNext, .getNext [str, num]]).map
    (fun o => (o.eof, o.msg)) =
    [(true, bs "f 1: invalid conversion for parameter at column 2: 'x'"), (true, bs "f: read on end of file"),
     (true, bs "f 2: invalid conversion for parameter at column 2: 'x'"),
     (true, bs "f 2: invalid conversion for parameter at column 2: 'x'"), (true, bs "f: read on end of file")] := by
  decide +kernel

/-! ## C29: the reading loop -/

/-- C29: a `get_next` of a parser with `eof()` false consumes a line: `line()` grows. -/
theorem C29_progress {x : Ctx} (hx : x.Ok) (hm : x.cfg.multiline = false) {s : Parser} (h : Parser.Reach x s) {rs : List Req}
    (hrs : rs ≠ []) (hr : x.rest s.line ≠ []) :
    ∃ o s', Parser.step x (.getNext rs) s = some (o, s') ∧ s.line < s'.line ∧
      (x.rest s.line).length = (x.rest s'.line).length + 1 := by
  obtain ⟨l, ls, hl⟩ := List.exists_cons_of_ne_nil hr
  obtain ⟨s', res, h1, h2, _, h4, _⟩ := row_core hx hm h hrs hl
  exact ⟨_, s', h1.step, h4, by rw [hl, h2]; rfl⟩

/-- C29: with `n` rows left, the loop `while (!p.eof()) p.get_next()` - with any types in each call - makes exactly `n`
calls: `eof()` is false before and after the first `n - 1` calls and true after the `n`-th.  Missing from the full
statement: `eof()` must be true when no row is left - it is not after the last row was skipped, see
`C33_skipping_the_last_row`; then the loop makes one call too many. -/
theorem C29_calls_partial {x : Ctx} (hx : x.Ok) (hm : x.cfg.multiline = false) {s : Parser} (h : Parser.Reach x s)
    (he : s.eof = (x.rest s.line).isEmpty) {reqs : List (List Req)} (hne : ∀ rs ∈ reqs, rs ≠ [])
    (hlen : reqs.length = (x.rest s.line).length) :
    ∃ os s', Parser.run x (reqs.map .getNext) s = some (os, s') ∧ s'.eof = true ∧ (reqs ≠ [] → s.eof = false) ∧
      ∀ k, k < reqs.length → ∃ o, os[k]? = some o ∧ o.eof = decide (k + 1 = reqs.length) := by
  obtain ⟨os, s', h1, h2⟩ := rows_run hx hm reqs h hne
  have key : ∀ k, k < reqs.length → ∃ o, os[k]? = some o ∧ o.eof = decide (k + 1 = reqs.length) := by
    intro k hk
    obtain ⟨o, e1, e2, _⟩ := h2 k reqs[k] (List.getElem?_eq_getElem hk)
    refine ⟨o, e1, ?_⟩
    rw [e2, hlen]
    rw [decide_eq_decide]
    omega
  refine ⟨os, s', h1, ?_, ?_, key⟩
  · cases hr : x.rest s.line with
    | nil =>
      rw [hr] at hlen
      have : reqs = [] := List.length_eq_zero_iff.mp hlen
      subst this
      cases h1
      rw [he, hr]; rfl
    | cons l ls =>
      have hlen' : reqs.length ≠ 0 := by rw [hlen, hr]; simp
      obtain ⟨o, e1, e2⟩ := key (reqs.length - 1) (by omega)
      have e3 : o.eof = true := by rw [e2]; simp; omega
      have hl : ∀ (ops : List Op) (s : Parser) (os : List Obs), Parser.run x ops s = some (os, s') →
          os.length = ops.length ∧ ∀ o, os.getLast? = some o → o.eof = s'.eof := by
        intro ops
        induction ops with
        | nil => intro s os h; cases h; simp
        | cons op ops ih =>
          intro s os h
          unfold Parser.run at h
          split at h
          · cases h
          · rename_i o1 s1 hst
            split at h
            · cases h
            · rename_i os1 s2 hrun
              cases h
              obtain ⟨i1, i2⟩ := ih _ _ hrun
              refine ⟨by simp [i1], ?_⟩
              intro o ho
              cases os1 with
              | nil =>
                cases ops with
                | cons => simp at i1
                | nil =>
                  cases hrun
                  simp at ho
                  subst ho
                  unfold Parser.step at hst
                  split at hst <;> first | (cases hst; rfl) | cases hst
              | cons a b => exact i2 o (by simpa using ho)
      obtain ⟨hl1, hl2⟩ := hl _ _ _ h1
      have := hl2 o (by rw [List.getLast?_eq_getElem?, hl1]; simpa using e1)
      rw [← this, e3]
  · intro hre
    rw [he]
    cases hr : x.rest s.line with
    | nil => rw [hr] at hlen; exact absurd (List.length_eq_zero_iff.mp hlen) hre
    | cons => rfl

/-- C29: the loop itself, without `throw_on_error`: it ends, after one value per row, and then `eof()` is true. -/
theorem C29_loop_partial {x : Ctx} (hx : x.Ok) (hm : x.cfg.multiline = false) (hth : x.cfg.mode ≠ .throw) {rs : List Req}
    (hrs : rs ≠ []) : ∀ (n : Nat) {s : Parser}, Parser.Reach x s → s.eof = (x.rest s.line).isEmpty →
    (x.rest s.line).length = n →
    ∃ vss s', Parser.whileNotEof x rs (n + 1) s = .ok vss s' ∧ vss.length = n ∧ s'.eof = true := by
  intro n
  induction n with
  | zero =>
    intro s h he hn
    have h0 := List.length_eq_zero_iff.mp hn
    rw [h0] at he
    refine ⟨[], s, ?_, rfl, he⟩
    unfold Parser.whileNotEof
    simp only [M.get_bind]
    rw [he]
    rfl
  | succ n ih =>
    intro s h he hn
    obtain ⟨l, ls, hl⟩ := List.exists_cons_of_ne_nil (l := x.rest s.line) (by intro h; rw [h] at hn; cases hn)
    obtain ⟨s1, res, h1, h2, h3, _⟩ := row_core hx hm h hrs hl
    obtain ⟨vs, hv⟩ : ∃ vs, Parser.getNext x rs s = .ok vs s1 := by
      unfold RowOut at h1
      cases res with
      | ok vs => exact ⟨vs, h1.1⟩
      | error m =>
        simp only [hth, if_false] at h1
        obtain ⟨vs, h, _⟩ := h1
        exact ⟨vs, h⟩
    obtain ⟨vss, s', e1, e2, e3⟩ := ih (h.step h1.step) (by rw [h3, h2]) (by rw [h2]; rw [hl] at hn; simpa using hn)
    refine ⟨vs :: vss, s', ?_, by simp [e2], e3⟩
    have he' : s.eof = false := by rw [he, hl]; rfl
    conv => lhs; unfold Parser.whileNotEof
    simp only [M.get_bind, he', Bool.false_eq_true, if_false]
    rw [M.bind_of_ok hv, M.bind_of_ok e1]
    rfl

/-- C29: a new parser, of data with rows or without: the loop makes one call per row, unless there is only the row that
`ignore_header` skipped. -/
theorem C29_new_parser {x : Ctx} (hx : x.Ok) (hm : x.cfg.multiline = false) {s : Parser} (h : Parser.Created x s)
    (h0 : x.cfg.ignoreHeader = false ∨ (lines x.src.data = [] ∨ x.rows ≠ [])) :
    s.eof = (x.rest s.line).isEmpty ∧ (x.rest s.line).length = x.rows.length := by
  obtain ⟨h1, h2, _, _⟩ := created_rest (hx.good hm) h
  refine ⟨?_, by rw [h1]⟩
  rw [h1, h2]
  unfold Ctx.rows
  rcases h0 with h0 | h0 | h0
  · simp [h0]
  · have : x.rest 0 = [] := by unfold Ctx.rest; rw [h0]; rfl
    rw [this]; simp
  · unfold Ctx.rows at h0
    cases hr : x.rest 0 with
    | nil => simp
    | cons l ls =>
      rw [hr] at h0
      cases hd : List.drop (if x.cfg.ignoreHeader then 1 else 0) (l :: ls) with
      | nil => exact absurd hd h0
      | cons => rfl

open Demo in
/-- the hypotheses of the loop theorems are met by a new parser of three rows -/
example : (start cs "a,1\nb,x\nc,2").eof = ((ctx cs "a,1\nb,x\nc,2").rest (start cs "a,1\nb,x\nc,2").line).isEmpty ∧
    ((ctx cs "a,1\nb,x\nc,2").rest (start cs "a,1\nb,x\nc,2").line).length = 3 := by
  decide +kernel

/-! ## C30: `position()` and `line()` -/

theorem location_of {x : Ctx} {s : Parser} {t : Mach} (hp : PRel x s t) (hi : MInv x t) {l : Bytes}
    {ls : List Bytes} (hr : x.rest s.line = l :: ls) :
    ∃ pre raw post, x.src.data = pre.flatten ++ raw ++ post ∧ rawLines x.src.data = pre ++ raw :: rawLines post ∧
      chop raw = l ∧ s.line = pre.length ∧ s.position = pre.flatten.length := by
  rw [hp.line] at hr
  obtain ⟨_, hh, hlook, _⟩ := hi.rest_here hr
  have hl := hh.look
  have hln := hh.ln
  have hlt : t.rd.ln - 1 < (rawLines x.src.data).length := by
    false_or_by_contra
    rw [List.getElem?_eq_none (by omega)] at hl
    cases hl
  rw [List.getElem?_eq_getElem hlt] at hl
  simp only [Option.map_some, Option.some.injEq] at hl
  have hfl := rawLines_flatten x.src.data
  have hsplit : rawLines x.src.data = (rawLines x.src.data).take (t.rd.ln - 1) ++
      (rawLines x.src.data)[t.rd.ln - 1] :: (rawLines x.src.data).drop (t.rd.ln - 1 + 1) := by
    rw [← List.drop_eq_getElem_cons hlt, List.take_append_drop]
  have hpost : ∀ (n : Nat) (ls : List Bytes), RawList ls → RawList (ls.drop n) := by
    intro n
    induction n with
    | zero => intro ls h; exact h
    | succ n ih =>
      intro ls h
      cases h with
      | nil => exact .nil
      | last => simpa using RawList.nil
      | cons h1 h2 => exact ih _ h2
  have hdrop := (hpost (t.rd.ln - 1 + 1) _ (rawLines_rawList x.src.data)).flatten
  refine ⟨(rawLines x.src.data).take (t.rd.ln - 1), (rawLines x.src.data)[t.rd.ln - 1],
    ((rawLines x.src.data).drop (t.rd.ln - 1 + 1)).flatten, ?_, ?_, by rw [hl, hlook], ?_, ?_⟩
  · have := congrArg List.flatten hsplit
    rw [hfl, List.flatten_append, List.flatten_cons, ← List.append_assoc] at this
    exact this
  · rw [hdrop]; exact hsplit
  · rw [hp.line, Mach.line_eq, List.length_take]; omega
  · show s.rd.charsRead = _
    rw [hp.base.pos (.inl (by rw [hh.tries]; omega)), hh.pos]

/-- C30: when `l` is the next row, the raw lines of the data are `pre`, the line of `l`, and others; `line()` is the number
of the lines `pre` and `position()` their length in bytes: the offset of the line of `l` in the data.  (`Ctx.rest` is
defined by `line()`; the conclusion about `position()` and the text is independent of it.) -/
theorem C30_location {x : Ctx} (hx : x.Ok) (hm : x.cfg.multiline = false) {s : Parser} (h : Parser.Reach x s) {l : Bytes}
    {ls : List Bytes} (hr : x.rest s.line = l :: ls) :
    ∃ pre raw post, x.src.data = pre.flatten ++ raw ++ post ∧ rawLines x.src.data = pre ++ raw :: rawLines post ∧
      chop raw = l ∧ s.line = pre.length ∧ s.position = pre.flatten.length := by
  obtain ⟨t, hp, hi, _⟩ := h.sim (hx.live hm)
  exact location_of hp hi hr

theorem at_end_of {x : Ctx} {s : Parser} {t : Mach} (hp : PRel x s t) (hi : MInv x t) (hr : x.rest s.line = [])
    (htries : t.rd.tries ≤ 1 ∨ x.src.isBuf) : s.position = x.src.data.length := by
  rw [hp.line] at hr
  show s.rd.charsRead = _
  rw [hp.base.pos htries]
  rcases hi.rest_over hr with he | ⟨_, ho⟩
  · rcases (hi.over he).2 with ⟨_, h2, h3⟩ | ho
    · rw [h3, h2]; rfl
    · exact ho.pos
  · exact ho.pos

/-- C30: before the first attempt to read behind the end, `position()` at the end of the file is the size of the data. -/
theorem C30_at_end {x : Ctx} (hx : x.Ok) (hm : x.cfg.multiline = false) {s : Parser} (h : Parser.Reach x s)
    (hr : x.rest s.line = []) (hl : s.line ≤ (lines x.src.data).length ∨ x.src.isBuf) : s.position = x.src.data.length := by
  obtain ⟨t, hp, hi, _⟩ := h.sim (hx.live hm)
  refine at_end_of hp hi hr (hl.imp (fun h => hi.tries_of_line' hm (hp.line ▸ h)) id)

open Demo in
example : (runs { cs with ignoreEmpty := true } "a,1\n\r\n\nb,x\r\nc" [.ignoreNext, .getNext [str, num]]).map (fun o => (o.line, o.position)) =
    [(3, 7), (4, 12)] := by
  decide +kernel

/-! ## C33: skipping rows -/

/-- C33: when `l` is the next row (with multiline: the line it begins with), `ignore_next` skips exactly this row (with
multiline: this line, see `C33_row_of_several_lines`): afterwards the parser stands at the following row, and nothing else
changes; it returns whether there is one.  Missing from the full statement: `eof()` does not become
true when no row remains (`C33_skipping_the_last_row`). -/
theorem C33_ignore_next_partial {x : Ctx} (hx : x.Ok) {s : Parser} (h : Parser.ReachT x s)
    {l : Bytes} {ls : List Bytes} (hr : x.rest s.line = l :: ls) :
    ∃ o s', Parser.step x .ignoreNext s = some (o, s') ∧ o.ret = .flag (!ls.isEmpty) ∧ x.rest s'.line = ls ∧
      s'.eof = false ∧ s'.valid x.cfg = s.valid x.cfg ∧ s'.err = s.err ∧ (∀ t, s'.converter t = s.converter t) ∧
      s'.rawHeader = s.rawHeader := by
  obtain ⟨t, hp, hi, _⟩ := h.sim hx.liveT
  rw [hp.line] at hr
  obtain ⟨he, hh, hlook, htodo⟩ := hi.rest_here hr
  obtain ⟨o, o', s', t', h1, h2, h3, h4, h5⟩ := step_simT hx.liveT .ignoreNext (by intro _ a as h; cases h) hp hi
  have hstep : Mach.step x .ignoreNext t = some (Mach.observe x (.flag (t.rd.readR x).1) { t with rd := (t.rd.readR x).2 },
      { t with rd := (t.rd.readR x).2 }) := by
    unfold Mach.step Op.mexec
    simp only
    rw [M.bind_of_ok (onRd_of_ok (MRd.readNext_eq x _))]
    rfl
  rw [hstep] at h2
  cases h2
  obtain ⟨r1, r2, r3, r4, r5, r6, r7, r8, r9⟩ := hi.base.read
  have hrest := hi.base.rest_read { t with rd := (t.rd.readR x).2 } rfl
  rw [htodo] at hrest
  refine ⟨o, s', h1, ?_, by rw [h3.line]; exact hrest.1, by rw [h3.eof]; exact he, ?_, by rw [h3.err, hp.err], ?_, ?_⟩
  · rw [h5.ret]
    show Ret.flag (t.rd.readR x).1 = _
    rw [hrest.2]
  · rw [h3.valid, hp.valid]; rfl
  · intro l
    unfold Parser.converter
    rw [h3.base.cur.sel, h3.base.cur.ncols, hp.base.cur.sel, hp.base.cur.ncols]
    simp only [r6, r7]
  · rw [h3.rawHeader, hp.rawHeader]

/-- C33: so the next `get_next` returns the row behind the skipped one. -/
theorem C33_next_row_partial {x : Ctx} (hx : x.Ok) (hm : x.cfg.multiline = false) {s : Parser} (h : Parser.Reach x s)
    {l l' : Bytes} {ls : List Bytes} (hr : x.rest s.line = l :: l' :: ls) {rs : List Req} (hrs : rs ≠ []) :
    ∃ o s', Parser.step x .ignoreNext s = some (o, s') ∧
      ∀ vs, Parser.Yields x (Parser.getNext x rs s') vs ↔ Ssp.Yields x.cfg (s.fresh x rs l') vs := by
  obtain ⟨o, s', h1, _, h2, _, _, _, h3, _⟩ := C33_ignore_next_partial hx (h.tame hm) hr
  refine ⟨o, s', h1, fun vs => ?_⟩
  rw [(C25_row hx hm (h.step h1) hrs h2).1 vs]
  unfold Parser.fresh
  rw [h3]

/-- C33: when no row is left, `ignore_next` returns false and does not change `eof()`. -/
theorem C33_nothing_left {x : Ctx} (hx : x.Ok) {s : Parser} (h : Parser.ReachT x s)
    (hr : x.rest s.line = []) :
    ∃ o s', Parser.step x .ignoreNext s = some (o, s') ∧ o.ret = .flag false ∧ x.rest s'.line = [] ∧ s'.eof = s.eof := by
  obtain ⟨t, hp, hi, _⟩ := h.sim hx.liveT
  rw [hp.line] at hr
  obtain ⟨o, o', s', t', h1, h2, h3, h4, h5⟩ := step_simT hx.liveT .ignoreNext (by intro _ a as h; cases h) hp hi
  have hstep : Mach.step x .ignoreNext t = some (Mach.observe x (.flag (t.rd.readR x).1) { t with rd := (t.rd.readR x).2 },
      { t with rd := (t.rd.readR x).2 }) := by
    unfold Mach.step Op.mexec
    simp only
    rw [M.bind_of_ok (onRd_of_ok (MRd.readNext_eq x _))]
    rfl
  rw [hstep] at h2
  cases h2
  have htodo : t.rd.todo = [] := by
    rcases hi.rest_over hr with he | ⟨_, ho⟩
    · exact (hi.over he).1
    · rw [hi.base.todo]; exact List.drop_eq_nil_of_le (Nat.le_of_lt ho.ln)
  have hrest := hi.base.rest_read { t with rd := (t.rd.readR x).2 } rfl
  rw [htodo] at hrest
  refine ⟨o, s', h1, ?_, by rw [h3.line]; exact hrest.1, by rw [h3.eof, hp.eof]⟩
  rw [h5.ret]
  show Ret.flag (t.rd.readR x).1 = _
  rw [hrest.2]; rfl

open Demo in
/-- C33, found while proving `C33_ignore_next_partial`: `eof()` stays false when the last row is skipped - by `ignore_next`,
by `ignore_header`, by `use_fields` -, and the next `get_next` is an error about a row that does not exist. -/
theorem C33_skipping_the_last_row :
    (runs cs "a,1" [.ignoreNext, .getNext [str, num]]).map (fun o => (o.eof, o.msg)) =
      [(false, []), (true, bs "f 2: invalid number of columns, expected: 2, got: 0")] ∧
    (start { cs with ignoreHeader := true } "a,b\n").eof = false ∧
    (runs { cs with ignoreHeader := true } "a,b\n" [.getNext [str, num]]).map (fun o => (o.eof, o.msg)) =
      [(true, bs "f 2: invalid number of columns, expected: 2, got: 0")] ∧
    (runs cs "a,b\n" [.useFields [bs "a", bs "b"], .getNext [str, num]]).map (fun o => (o.eof, o.valid)) =
      [(false, true), (true, false)] := by
  decide +kernel

/-! ## C42: iterating equals looping -/

theorem iterate_succ (x : Ctx) (rs : List Req) (f : Nat) (s : Parser) : Parser.iterate x rs (f + 1) s =
    if s.eof then .ok [] s
    else (Parser.getNext x rs >>= fun v => Parser.iterate x rs f >>= fun vs => pure (v :: vs)) s := by
  have hl : ∀ (v : List Val) (s1 : Parser), Parser.iterLoop x rs (f + 1) { active := true, value := v } s1 =
      (Parser.iterate x rs f >>= fun vs => pure (v :: vs)) s1 := by
    intro v s1
    have hi : Parser.iterate x rs f = (Parser.iterIncr x rs { active := true, value := v } >>= Parser.iterLoop x rs f) := by
      funext s2
      unfold Parser.iterate
      by_cases he : s2.eof = true
      · have e1 : ∀ w, Parser.iterIncr x rs { active := true, value := w } s2 = .ok { active := false, value := w } s2 := by
          intro w; unfold Parser.iterIncr; simp [M.get_bind, he]
        rw [M.bind_of_ok (e1 _), M.bind_of_ok (e1 _)]
        cases f with
        | zero => rfl
        | succ f => rfl
      · have he : s2.eof = false := by simpa using he
        have e1 : ∀ w, Parser.iterIncr x rs { active := true, value := w } s2 =
            (Parser.getNext x rs >>= fun v => pure { active := true, value := v }) s2 := by
          intro w; unfold Parser.iterIncr; simp [M.get_bind, he]
        simp only [M.bind_apply] at e1 ⊢
        rw [e1, e1]
    unfold Parser.iterLoop
    simp only [if_true]
    rw [hi]
    simp only [M.bind_apply]
    cases Parser.iterIncr x rs { active := true, value := v } s1 <;> rfl
  unfold Parser.iterate
  by_cases he : s.eof = true
  · rw [if_pos he]
    have e1 : ∀ w, Parser.iterIncr x rs { active := true, value := w } s = .ok { active := false, value := w } s := by
      intro w; unfold Parser.iterIncr; simp [M.get_bind, he]
    rw [M.bind_of_ok (e1 _)]
    rfl
  · rw [if_neg he]
    have he : s.eof = false := by simpa using he
    have e1 : ∀ w, Parser.iterIncr x rs { active := true, value := w } s =
        (Parser.getNext x rs >>= fun v => pure { active := true, value := v }) s := by
      intro w; unfold Parser.iterIncr; simp [M.get_bind, he]
    cases hg : Parser.getNext x rs s with
    | ok v s1 =>
      have e2 := e1 (Conv.defaults rs)
      rw [M.bind_of_ok hg] at e2
      rw [M.bind_of_ok (a := { active := true, value := v }) (s' := s1) e2, hl, M.bind_of_ok hg]
      rfl
    | exc e s1 =>
      have e2 := e1 (Conv.defaults rs)
      rw [M.bind_of_exc hg] at e2
      rw [M.bind_of_exc e2, M.bind_of_exc hg]
    | ub =>
      have e2 := e1 (Conv.defaults rs)
      simp only [M.bind_apply, hg] at e2 ⊢
      rw [e2]
    | nofuel =>
      have e2 := e1 (Conv.defaults rs)
      simp only [M.bind_apply, hg] at e2 ⊢
      rw [e2]

theorem while_succ (x : Ctx) (rs : List Req) (f : Nat) (s : Parser) : Parser.whileNotEof x rs (f + 1) s =
    if s.eof then .ok [] s
    else (Parser.getNext x rs >>= fun v => Parser.whileNotEof x rs f >>= fun vs => pure (v :: vs)) s := by
  conv => lhs; unfold Parser.whileNotEof
  simp only [M.get_bind]
  split <;> rfl

theorem bind_of_ne {α β : Type} {m m' : M Parser α} {g : α → M Parser β} {s : Parser} (hm : m s ≠ .nofuel → m' s = m s)
    (h : (m >>= g) s ≠ .nofuel) : (m' >>= g) s = (m >>= g) s := by
  simp only [M.bind_apply] at h ⊢
  rw [hm (by intro h'; rw [h'] at h; exact h rfl)]

theorem bind_ne_nofuel {α β : Type} {m : M Parser α} {g g' : α → M Parser β} {s : Parser} (h : (m >>= g) s ≠ .nofuel)
    (hg : ∀ a s', m s = .ok a s' → g a s' ≠ .nofuel → g' a s' = g a s') : (m >>= g') s = (m >>= g) s := by
  simp only [M.bind_apply] at h ⊢
  cases hm : m s with
  | ok a s' => rw [hm] at h; exact hg a s' hm h
  | _ => rfl

/-- C42: `for (v : p.iterate<...>())` and `while (!p.eof()) p.get_next<...>()`, started on the same parser in any state, do the
same: both end (or both do not), with the same values in the same order, the same final parser, the same exception, or
both with undefined behaviour. -/
theorem C42_iterate_is_loop (x : Ctx) (rs : List Req) (s : Parser) (r : Res Parser (List (List Val))) (hr : r ≠ .nofuel) :
    (∃ f, Parser.iterate x rs f s = r) ↔ ∃ f, Parser.whileNotEof x rs f s = r := by
  have h1 : ∀ f s, Parser.whileNotEof x rs f s ≠ .nofuel → Parser.iterate x rs f s = Parser.whileNotEof x rs f s := by
    intro f
    induction f with
    | zero => intro s h; exact absurd rfl h
    | succ f ih =>
      intro s h
      rw [while_succ] at h ⊢
      rw [iterate_succ]
      split
      · rfl
      · rename_i he
        rw [if_neg he] at h
        refine bind_ne_nofuel h fun v s' _ h' => ?_
        refine bind_of_ne (ih s') h'
  have h2 : ∀ f s, Parser.iterate x rs f s ≠ .nofuel → Parser.whileNotEof x rs (f + 1) s = Parser.iterate x rs f s := by
    intro f
    induction f with
    | zero =>
      intro s h
      rw [while_succ]
      have key : ∀ it s, Parser.iterLoop x rs 0 it s = .nofuel := fun _ _ => rfl
      unfold Parser.iterate at h ⊢
      by_cases he : s.eof = true
      · have e1 : Parser.iterIncr x rs { active := true, value := Conv.defaults rs } s = .ok { active := false, value := Conv.defaults rs } s := by
          unfold Parser.iterIncr; simp [M.get_bind, he]
        rw [M.bind_of_ok e1] at h
        exact absurd rfl h
      · have e1 : Parser.iterIncr x rs { active := true, value := Conv.defaults rs } s =
            (Parser.getNext x rs >>= fun v => pure { active := true, value := v }) s := by
          unfold Parser.iterIncr; simp [M.get_bind, he]
        rw [if_neg he]
        simp only [M.bind_apply] at e1 h ⊢
        rw [e1] at h ⊢
        cases hg : Parser.getNext x rs s with
        | ok v s' => rw [hg] at h; exact absurd rfl h
        | exc e s' => rfl
        | ub => rfl
        | nofuel => rfl
    | succ f ih =>
      intro s h
      rw [iterate_succ] at h ⊢
      rw [while_succ]
      split
      · rfl
      · rename_i he
        rw [if_neg he] at h
        refine bind_ne_nofuel h fun v s' _ h' => ?_
        refine bind_of_ne (ih s') h'
  constructor
  · rintro ⟨f, hf⟩
    exact ⟨f + 1, by rw [h2 f s (by rw [hf]; exact hr), hf]⟩
  · rintro ⟨f, hf⟩
    exact ⟨f, by rw [h1 f s (by rw [hf]; exact hr), hf]⟩

open Demo in
example : (match Parser.iterate (ctx cs "a,1\nb,x\nc,2") [str, num] 10 (start cs "a,1\nb,x\nc,2") with
    | .ok vss s => some (vss, s.eof)
    | _ => none) = some ([[.str (bs "a"), .int 1], [.str (bs "b"), .int 0], [.str (bs "c"), .int 2]], true) := by
  decide +kernel

end Ssp
