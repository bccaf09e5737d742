import Verif.Props.ParserOthers
import Verif.Props.ParserChainMl
import Verif.Proofs.LockstepRun
/-! # C73 for all calls: rows of one line -/
namespace Ssp
open Spec

variable {x : Ctx}

/-- on a line that is a row for itself, the machine parses alike with and without multiline -/
theorem parse_noMultiline (hd : x.delim ≠ []) {a : MRd} (he : ¬ x.cfg.Escaped a.look)
    (ht : cutNul a.look = [] ∨ (decodeRow x.cfg x.delim (cutNul a.look)).2 = .eol ∨
      ∃ p b, (decodeRow x.cfg x.delim (cutNul a.look)).2 = .mismatch p b ∧ (x.cfg.mode = .throw → b = false)) :
    MRd.parse x a = MRd.parse x.noMultiline a := by
  have hdr : ∀ t, decodeRow x.noMultiline.cfg x.noMultiline.delim t = decodeRow x.cfg x.delim t := fun t =>
    decodeRow_congr (c := x.cfg) (c' := x.noMultiline.cfg) ⟨rfl, rfl, rfl, rfl⟩ hd _
  have h1 : MRd.escapeLoopIf x [] 0 0 a = .ok (some 0) a := by
    unfold MRd.escapeLoopIf
    by_cases hm : x.cfg.multiline = true ∧ x.cfg.escape ≠ []
    · rw [if_pos hm]
      obtain ⟨k, hk⟩ : ∃ k, Reader.bound x = k + 1 := ⟨_, rfl⟩
      rw [hk]
      unfold MRd.escapeLoop
      rw [M.get_bind]
      have : MRd.oddTail x.cfg ([] ++ a.look.drop 0) = false := by
        unfold MRd.oddTail MRd.trailing
        unfold Cfg.Escaped at he
        simp only [List.nil_append, List.drop_zero]
        cases hb : ((List.takeWhile (fun x_1 => decide (x_1 ∈ x.cfg.escape)) a.look.reverse).length % 2 == 1) with
        | false => rfl
        | true => exact absurd (by simpa using hb) he
      simp only [this, Bool.false_eq_true, if_false]
      rfl
    · rw [if_neg hm]; rfl
  have h1' : MRd.escapeLoopIf x.noMultiline [] 0 0 a = .ok (some 0) a := by
    unfold MRd.escapeLoopIf
    rw [if_neg (by rintro ⟨h, _⟩; cases h)]; rfl
  have hend : cutNul a.look ≠ [] → endError x.noMultiline.cfg (cutNul a.look).length (decodeRow x.cfg x.delim (cutNul a.look)).2 =
      endError x.cfg (cutNul a.look).length (decodeRow x.cfg x.delim (cutNul a.look)).2 := by
    intro hne
    rcases ht with h | h | ⟨p, b, h, hb⟩
    · exact absurd h hne
    · rw [h]; unfold endError; split <;> split <;> rfl
    · rw [h]
      unfold endError
      show (if x.cfg.mode = .throw then _ else _) = _
      by_cases hth : x.cfg.mode = .throw
      · rw [hb hth, if_pos hth, if_pos hth]; rfl
      · rw [if_neg hth, if_neg hth]; rfl
  have h2 : MRd.splitText x.noMultiline.cfg x.noMultiline.delim (cutNul a.look) a = MRd.splitText x.cfg x.delim (cutNul a.look) a := by
    unfold MRd.splitText
    by_cases hne : cutNul a.look = []
    · rw [if_pos hne, if_pos hne]
    · rw [if_neg hne, if_neg hne, hdr, hend hne]; rfl
  unfold MRd.parse
  rw [M.bind_of_ok h1, M.bind_of_ok h1']
  simp only [M.get_bind]
  rw [M.bind_apply, M.bind_apply, h2]
  cases hs : MRd.splitText x.cfg x.delim (cutNul a.look) a with
  | ok u a1 =>
    dsimp only
    rw [if_neg (c := x.noMultiline.cfg.multiline = true ∧ _) (by rintro ⟨h, _⟩; cases h)]
    by_cases hm : x.cfg.multiline = true ∧ x.cfg.quote ≠ none ∧ cutNul a.look ≠ []
    · rw [if_pos hm]
      rcases ht with h | h | ⟨p, b, h, hb⟩
      · exact absurd h hm.2.2
      · rw [h]
      · rw [h]
    · rw [if_neg hm]
  | exc e a1 => rfl
  | ub => rfl
  | nofuel => rfl

theorem readLine_noMultiline : Mach.readLine x.noMultiline = Mach.readLine x := rfl
theorem clearError_noMultiline : Mach.clearError x.noMultiline.cfg = Mach.clearError x.cfg := rfl
theorem handleError_noMultiline : Mach.handleError x.noMultiline.cfg = Mach.handleError x.cfg := rfl
theorem invalidConversion_noMultiline : Mach.handleErrorInvalidConversion x.noMultiline = Mach.handleErrorInvalidConversion x := rfl
theorem decorateRethrow_noMultiline {α : Type} (e : Bytes) : Mach.decorateRethrow (α := α) x.noMultiline e = Mach.decorateRethrow x e := rfl
theorem convertCur_noMultiline (rs : List Req) : MRd.convertCur x.noMultiline.cfg rs = MRd.convertCur x.cfg rs := rfl
theorem mode_noMultiline : x.noMultiline.cfg.mode = x.cfg.mode := rfl
theorem fileName_noMultiline : x.noMultiline.fileName = x.fileName := rfl

theorem convertRow_noMultiline (rs : List Req) : Mach.convertRow x.noMultiline rs = Mach.convertRow x rs := by
  unfold Mach.convertRow
  rw [mode_noMultiline]
  simp only [readLine_noMultiline, decorateRethrow_noMultiline, convertCur_noMultiline, invalidConversion_noMultiline]

theorem parseRowIf_noMultiline {t : Mach} (h : t.eof = false → MRd.parse x t.rd = MRd.parse x.noMultiline t.rd) :
    Mach.parseRowIf x t = Mach.parseRowIf x.noMultiline t := by
  unfold Mach.parseRowIf
  cases he : t.eof with
  | true => rw [if_pos rfl, if_pos rfl]
  | false =>
    have hp : Mach.onRd (MRd.parse x) t = Mach.onRd (MRd.parse x.noMultiline) t := by unfold Mach.onRd; rw [h he]
    rw [if_neg (by decide), if_neg (by decide)]
    unfold Mach.parseRow
    rw [mode_noMultiline]
    cases x.cfg.mode with
    | throw =>
      dsimp only
      unfold Mach.tryCatch
      simp only [hp, readLine_noMultiline, decorateRethrow_noMultiline]
    | _ => exact hp

theorem getNext_noMultiline {t : Mach} (h : t.eof = false → MRd.parse x t.rd = MRd.parse x.noMultiline t.rd) (rs : List Req) :
    Mach.getNext x rs t = Mach.getNext x.noMultiline rs t := by
  unfold Mach.getNext
  rw [M.bind_apply, M.bind_apply, parseRowIf_noMultiline h]
  simp only [readLine_noMultiline, mode_noMultiline, fileName_noMultiline, clearError_noMultiline, handleError_noMultiline,
    invalidConversion_noMultiline, convertRow_noMultiline]

theorem addHeader_noMultiline : ∀ fs, Mach.addHeader x.noMultiline fs = Mach.addHeader x fs
  | [] => rfl
  | f :: fs => by
    unfold Mach.addHeader
    rw [addHeader_noMultiline fs]
    simp only [handleError_noMultiline, fileName_noMultiline]

theorem mapFields_noMultiline (all : List Bytes) : ∀ fs, Mach.mapFields x.noMultiline all fs = Mach.mapFields x all fs
  | [] => rfl
  | f :: fs => by
    unfold Mach.mapFields
    rw [mapFields_noMultiline all fs]
    simp only [handleError_noMultiline, fileName_noMultiline]

theorem tryInvoke_noMultiline : Mach.tryInvoke x.noMultiline = Mach.tryInvoke x := by
  unfold Mach.tryInvoke
  simp only [handleError_noMultiline, fileName_noMultiline]

theorem trySame_noMultiline (rs : List Req) : Mach.trySame x.noMultiline rs = Mach.trySame x rs := by
  unfold Mach.trySame
  simp only [clearError_noMultiline, convertCur_noMultiline, mode_noMultiline, invalidConversion_noMultiline]
  rfl

theorem orElse_noMultiline (a : Parser.Alt) : Mach.orElse x.noMultiline a = Mach.orElse x a := by
  have hv : ∀ s : Mach, s.valid x.noMultiline.cfg = s.valid x.cfg := fun _ => rfl
  unfold Mach.orElse
  simp only [tryInvoke_noMultiline, trySame_noMultiline, hv]

theorem orElses_noMultiline : ∀ as, Mach.orElses x.noMultiline as = Mach.orElses x as
  | [] => rfl
  | a :: as => by
    unfold Mach.orElses
    rw [orElses_noMultiline as, orElse_noMultiline]

/-- the calls that read a row and split it -/
def Op.Parses : Op → Prop
  | .getNext _ | .chain _ _ => True
  | _ => False

theorem mexec_noMultiline (hw : x.wrapped = false) {t : Mach} (op : Op)
    (h : op.Parses → t.eof = false → MRd.parse x t.rd = MRd.parse x.noMultiline t.rd) :
    op.mexec x t = op.mexec x.noMultiline t := by
  have hc : Parser.headerCfg x.noMultiline = Parser.headerCfg x := by
    unfold Parser.headerCfg
    show (if x.wrapped then _ else _) = (if x.wrapped then _ else _)
    rw [hw]; rfl
  have hd : x.noMultiline.delim = x.delim := rfl
  have hv : ∀ s : Mach, s.valid x.noMultiline.cfg = s.valid x.cfg := fun _ => rfl
  have hss : Mach.strictSplit x.noMultiline = Mach.strictSplit x := by
    funext s
    unfold Mach.strictSplit
    rw [hc]
    simp only [hd, mode_noMultiline, fileName_noMultiline]
    rfl
  have hsp : Mach.splitHeaderData x.noMultiline = Mach.splitHeaderData x := by
    unfold Mach.splitHeaderData
    simp only [hss, addHeader_noMultiline]
  have hspi : ∀ p, Mach.splitHeaderDataIf x.noMultiline p = Mach.splitHeaderDataIf x p := by
    intro p
    unfold Mach.splitHeaderDataIf
    rw [hsp]
  have hrn : MRd.readNext x.noMultiline = MRd.readNext x := rfl
  cases op with
  | getNext rs =>
    simp only [Op.mexec]
    rw [M.bind_apply, M.bind_apply, ← getNext_noMultiline (h trivial)]
    simp only [hv]
  | ignoreNext =>
    simp only [Op.mexec, hrn]
  | header =>
    simp only [Op.mexec, Mach.getHeader]
    rw [hss]
    simp only [clearError_noMultiline]
  | rawHeader => rfl
  | fieldExists f =>
    simp only [Op.mexec, Mach.fieldExists]
    simp only [hspi, hv, clearError_noMultiline]
  | useFields fs =>
    simp only [Op.mexec, Mach.useFields]
    simp only [hspi, mapFields_noMultiline, hv, clearError_noMultiline, handleError_noMultiline, hrn]
  | chain a as =>
    simp only [Op.mexec]
    rw [M.get_bind, M.get_bind]
    cases he : t.eof with
    | true => rw [if_pos rfl, if_pos rfl]
    | false =>
      rw [if_neg (by decide), if_neg (by decide)]
      unfold Mach.tryChain Mach.tryNext
      simp only [M.bind_apply]
      rw [← getNext_noMultiline (h trivial)]
      simp only [orElses_noMultiline, tryInvoke_noMultiline, hv]

/-! ## Whole lives -/

/-- No row is read directly behind a last row that was skipped with `ignore_next()` or `use_fields`: then `eof()` is not told yet, and
there is no row any more. -/
def Parser.Inside (x : Ctx) : List Op → Parser → Prop
  | [], _ => True
  | op :: ops, s => (op.Parses → s.eof = true ∨ s.line < (lines x.src.data).length) ∧
      ∀ o s', step x op s = some (o, s') → Inside x ops s'

/-- in throw mode: no line is seen to end with an escape character directly behind a quoted field (which for a line that is a row for itself
means: no such escape character is followed by a NUL) -/
def Ctx.NoThrownQuote (x : Ctx) : Prop :=
  x.cfg.mode = .throw → ∀ l ∈ lines x.src.data, ∀ p, (decodeRow x.cfg x.delim (cutNul l)).2 ≠ .mismatch p true

theorem joined_line (x : Ctx) {n : Nat} {l : Bytes} (h : (lines x.src.data)[n]? = some l) : x.joined n 0 = l := by
  unfold lines at h
  rw [List.getElem?_map] at h
  cases hr : (rawLines x.src.data)[n]? with
  | none => rw [hr] at h; cases h
  | some r =>
    rw [hr] at h
    simp only [Option.map_some, Option.some.injEq] at h
    unfold Ctx.joined
    have : ((rawLines x.src.data).drop n).take (0 + 1) = [r] := by
      have hlt : n < (rawLines x.src.data).length := by
        false_or_by_contra
        rw [List.getElem?_eq_none (by omega)] at hr; cases hr
      rw [List.getElem?_eq_getElem hlt] at hr
      rw [List.drop_eq_getElem_cons hlt, Option.some.inj hr]
      rfl
    rw [this]
    simpa using h

theorem Ctx.OneLine.rowTo (ho : ∀ l ∈ lines x.src.data, x.OneLine l) {n : Nat} (hn : n < (lines x.src.data).length) : x.RowTo n 0 := by
  refine ⟨hn, ?_, by intro i hi; omega⟩
  rw [joined_line x (List.getElem?_eq_getElem hn)]
  exact (ho _ (List.getElem_mem hn)).not_goesOn

theorem parse_here (hd : x.delim ≠ []) (ho : ∀ l ∈ lines x.src.data, x.OneLine l) (hq : x.NoThrownQuote) {t : Mach} (hi : MInv x t)
    (hl : t.eof = true ∨ t.line < (lines x.src.data).length) (he : t.eof = false) :
    MRd.parse x t.rd = MRd.parse x.noMultiline t.rd := by
  have hlen : (lines x.src.data).length = (rawLines x.src.data).length := by simp [lines]
  have hlt : t.line < (lines x.src.data).length := by
    rcases hl with h | h
    · rw [he] at h; cases h
    · exact h
  have hh : MHere x t.rd := by
    rcases hi.here he with h | h
    · exact h
    · have := h.ln
      unfold Mach.line at hlt
      split at hlt <;> omega
  have hmem : t.rd.look ∈ lines x.src.data := by
    have := hh.look
    rw [← List.getElem?_map] at this
    exact List.mem_of_getElem? this
  have h1 := ho _ hmem
  refine parse_noMultiline hd h1.1 (.inr ?_)
  rcases h1.2 with h | ⟨p, b, h⟩
  · exact .inl h
  · refine .inr ⟨p, b, h, fun hth => ?_⟩
    cases b with
    | false => rfl
    | true => exact absurd h (hq hth _ hmem p)

theorem step_both (hx : x.MlOk) (hw : x.wrapped = false) (ho : ∀ l ∈ lines x.src.data, x.OneLine l) (hq : x.NoThrownQuote) {s s' : Parser} {t : Mach}
    (op : Op) (hop : op.Parses → s.eof = true ∨ s.line < (lines x.src.data).length) (h : PRel x s t) (hi : MInv x t)
    (h' : PRel x.noMultiline s' t) (hi' : MInv x.noMultiline t) :
    ∃ o s1 s1' t1, Parser.step x op s = some (o, s1) ∧ Parser.step x.noMultiline op s' = some (o, s1') ∧ PRel x s1 t1 ∧ MInv x t1 ∧
      PRel x.noMultiline s1' t1 ∧ MInv x.noMultiline t1 := by
  have hx' : x.noMultiline.Ok := ⟨noMultiline_wf hx.ok.wf, hx.ok.delim, hx.ok.delim0, hx.ok.fine⟩
  have hT : op.Tame x s.line s.eof := by
    intro _ a as e
    subst e
    rcases hop trivial with h1 | h1
    · exact .inr (.inl h1)
    · exact .inr (.inr ⟨hx, 0, Ctx.OneLine.rowTo ho h1⟩)
  obtain ⟨o, o1, s1, t1, e1, e2, e3, e4, e5⟩ := step_simT hx.live op hT h hi
  obtain ⟨o', o1', s1', t1', e1', e2', e3', e4', e5'⟩ := step_simT (hx'.live rfl) op trivial h' hi'
  have hm : op.mexec x t = op.mexec x.noMultiline t := mexec_noMultiline hw op fun hp he =>
    parse_here hx.ok.delim ho hq hi (by rw [← h.eof, ← h.line]; exact hop hp) he
  have hst : Mach.step x op t = Mach.step x.noMultiline op t := by
    unfold Mach.step
    rw [hm]
    rfl
  rw [e2, e2'] at hst
  obtain ⟨ho1, ht1⟩ := Prod.mk.inj (Option.some.inj hst)
  subst ho1 ht1
  have hpos : ∀ {y : Ctx} {p p1 : Parser} {ob : Obs}, Parser.step y op p = some (ob, p1) → ob.position = p1.rd.charsRead := by
    intro y p p1 ob hh
    unfold Parser.step at hh
    cases hr : op.exec y p <;> rw [hr] at hh <;> simp only [Option.some.injEq, Prod.mk.injEq, reduceCtorEq] at hh
    · obtain ⟨rfl, rfl⟩ := hh; rfl
    · obtain ⟨rfl, rfl⟩ := hh; rfl
  have hoo : o = o' := by
    have hp1 := (hpos e1).trans e3.base.chars
    have hp2 := (hpos e1').trans e3'.base.chars
    obtain ⟨r, v, m, e, l, p⟩ := o
    obtain ⟨r', v', m', e', l', p'⟩ := o'
    have a1 := e5.ret.trans e5'.ret.symm
    have a2 := e5.valid.trans e5'.valid.symm
    have a3 := e5.msg.trans e5'.msg.symm
    have a4 := e5.eof.trans e5'.eof.symm
    have a5 := e5.line.trans e5'.line.symm
    have a6 := hp1.trans hp2.symm
    dsimp only at a1 a2 a3 a4 a5 a6
    rw [a1, a2, a3, a4, a5, a6]
  subst hoo
  exact ⟨_, _, _, _, e1, e1', e3, e4, e3', e4'⟩

/-- C73, for all calls: if every line of the input is a row for itself, `ss::multiline` (restricted or not) changes nothing that can be
observed: results, error texts, exceptions, `eof()`, `line()` and `position()` of every sequence of calls are the same. -/
theorem C73_all_calls (hx : x.MlOk) (hw : x.wrapped = false) (he : x.src.Exists) (ho : ∀ l ∈ lines x.src.data, x.OneLine l) (hq : x.NoThrownQuote)
    {s s' : Parser} (h : Parser.Created x s) (h' : Parser.Created x.noMultiline s') (ops : List Op) (hin : Parser.Inside x ops s) :
    ∃ os s1 s1', Parser.run x ops s = some (os, s1) ∧ Parser.run x.noMultiline ops s' = some (os, s1') := by
  have hx' : x.noMultiline.Ok := ⟨noMultiline_wf hx.ok.wf, hx.ok.delim, hx.ok.delim0, hx.ok.fine⟩
  obtain ⟨t, t1, t2⟩ := h.sim_exists hx.live.good he
  obtain ⟨t', t1', t2'⟩ := h'.sim_exists (hx'.live rfl).good he
  have ht : t' = t := by
    have : Mach.firstLine x (Mach.init x) = Mach.firstLine x.noMultiline (Mach.init x.noMultiline) := rfl
    rw [t1, t1'] at this
    cases this
    rfl
  subst ht
  have hi : MInv x t' := MNew.inv (.inl t1)
  have hi' : MInv x.noMultiline t' := MNew.inv (.inl t1')
  clear t1 t1' h h'
  induction ops generalizing s s' t' with
  | nil => exact ⟨[], s, s', rfl, rfl⟩
  | cons op ops ih =>
    obtain ⟨o, s1, s1', t1, e1, e2, e3, e4, e5, e6⟩ := step_both hx hw ho hq op hin.1 t2 hi t2' hi'
    obtain ⟨os, s2, s2', f1, f2⟩ := ih (hin.2 _ _ e1) _ e5 e3 e4 e6
    exact ⟨o :: os, s2, s2', by simp [Parser.run, e1, f1], by simp [Parser.run, e2, f2]⟩

theorem Tidy.inside (hx : x.MlOk) (hth : x.cfg.mode ≠ .throw) : ∀ {ops : List Op} {s : Parser}, Tidy x s → (∀ op ∈ ops, op.Reads) →
    Parser.Inside x ops s
  | [], _, _, _ => trivial
  | op :: _, s, h, ho => by
    have hs := h.step hx hth (ho op (by simp))
    refine ⟨fun _ => ?_, fun o s' hst => (hs.2 o s' hst).inside hx hth fun op h => ho op (by simp [h])⟩
    cases he : s.eof with
    | true => exact .inl rfl
    | false =>
      refine .inr ?_
      have hr : x.rest s.line ≠ [] := by intro hr; rw [h.eof, hr] at he; simp at he
      obtain ⟨k, hk, _⟩ := h.next hx hr
      have := hk.inside
      omega

/-- C73, for all calls that do not skip rows, without conditions on their order: every sequence of `get_next`, `try_next` with any `or_else`,
`header`, `raw_header` and `field_exists` observes the same with and without multiline. -/
theorem C73_reading_calls (hx : x.MlOk) (hw : x.wrapped = false) (hth : x.cfg.mode ≠ .throw) (hi : x.cfg.ignoreHeader = false) (he : x.src.Exists)
    (ho : ∀ l ∈ lines x.src.data, x.OneLine l) {s s' : Parser} (h : Parser.Created x s) (h' : Parser.Created x.noMultiline s') (ops : List Op)
    (hr : ∀ op ∈ ops, op.Reads) :
    ∃ os s1 s1', Parser.run x ops s = some (os, s1) ∧ Parser.run x.noMultiline ops s' = some (os, s1') := by
  obtain ⟨h1, h2, _⟩ := created_rest hx.live.good h
  have hrow : x.rows = x.rest 0 := by unfold Ctx.rows; simp [hi]
  rw [hrow] at h1
  have hc : x.AllComplete 0 := ⟨x.rest 0, mlRows_lines (fun l hl => (ho l hl).not_goesOn) _⟩
  have ht : Tidy x s := .after h.reachT hc (Nat.zero_le _) h1 h2
  exact C73_all_calls hx hw he ho (fun hm => absurd hm hth) h h' ops (ht.inside hx hth hr)

open Demo in
/-- the hypotheses are met, with a bad row -/
example (ops : List Op) (hr : ∀ op ∈ ops, op.Reads) : ∃ os s1 s1',
    Parser.run (ctx cm "a,\"b\"\n\"c\"x\nd\\,e") ops (start cm "a,\"b\"\n\"c\"x\nd\\,e") = some (os, s1) ∧
    Parser.run (ctx cm.noMultiline "a,\"b\"\n\"c\"x\nd\\,e") ops (start cm.noMultiline "a,\"b\"\n\"c\"x\nd\\,e") = some (os, s1') := by
  refine C73_reading_calls (x := ctx cm "a,\"b\"\n\"c\"x\nd\\,e") (cm_ok (by decide +kernel)) rfl (by decide) rfl (by intro h; cases h) ?_ (createdM cm_wf _)
    (createdM (noMultiline_wf cm_wf) _) ops hr
  have hl : lines (ctx cm "a,\"b\"\n\"c\"x\nd\\,e").src.data = [bs "a,\"b\"", bs "\"c\"x", bs "d\\,e"] := by decide +kernel
  rw [hl]
  intro l hm
  simp only [List.mem_cons, List.not_mem_nil, or_false] at hm
  unfold Ctx.OneLine
  rcases hm with rfl | rfl | rfl
  · exact ⟨by unfold Cfg.Escaped; decide +kernel, .inl (by decide +kernel)⟩
  · exact ⟨by unfold Cfg.Escaped; decide +kernel, .inr ⟨2, false, by decide +kernel⟩⟩
  · exact ⟨by unfold Cfg.Escaped; decide +kernel, .inl (by decide +kernel)⟩

open Demo in
/-- `Parser.Inside` is needed: the only line is two escape characters, a row for itself.  It is skipped, and a row is read although there
is none: with multiline the error is an escape at the end of the line, without it is the number of columns. -/
theorem C73_behind_skipped_row : (ctx cm "\\\\").OneLine (bs "\\\\") ∧ lines (ctx cm "\\\\").src.data = [bs "\\\\"] ∧
    (runs cm "\\\\" [.ignoreNext, .getNext [str]]).map (·.msg) = [[], bs "f 2: unterminated escape at the end of the line"] ∧
    (runs cm.noMultiline "\\\\" [.ignoreNext, .getNext [str]]).map (·.msg) =
      [[], bs "f 2: invalid number of columns, expected: 1, got: 0"] := by
  refine ⟨⟨by unfold Cfg.Escaped; decide +kernel, .inl (by decide +kernel)⟩, by decide +kernel, by decide +kernel, by decide +kernel⟩

open Demo in
/-- `Ctx.NoThrownQuote` is needed: the exception for a quoted field before an escape character and a NUL has another text with multiline -/
theorem C73_thrown_quote :
    (ctx cm "\"a\"\\\x00").OneLine (bs "\"a\"\\\x00") ∧ lines (ctx cm "\"a\"\\\x00").src.data = [bs "\"a\"\\\x00"] ∧
    (runs { cm with mode := .throw } "\"a\"\\\x00" [.getNext [str]]).map (·.ret) =
      [.thrown (bs "f 1: mismatched quote at position: 2")] ∧
    (runs { cm with mode := .throw, multiline := false } "\"a\"\\\x00" [.getNext [str]]).map (·.ret) =
      [.thrown (bs "f 1: unterminated escape at the end of the line")] := by
  refine ⟨⟨by unfold Cfg.Escaped; decide +kernel, .inr ⟨2, true, by decide +kernel⟩⟩, by decide +kernel, by decide +kernel, by decide +kernel⟩

end Ssp
