import Verif.Proofs.ParserHeader
import Verif.Props.ParserMultiline
/-!
# The header (C34, C35, C36, C51)

`x.firstRow` is the first row of the input, `x.HeaderIs cols`: a newly made splitter (without multiline) accepts it and
reports the columns `cols`; `x.HeaderBad m`: it rejects it with the message `m` (`Verif.Spec.Parser`).
-/
namespace Ssp
open Spec

section
variable {x : Ctx} {s : Parser}

theorem Ctx.HdrOk.live (h : x.HdrOk) : x.LiveFor fun n e op => op.Tame x n e := h.ok.liveT

theorem Ctx.HdrOk.plain (h : x.HdrOk) : x.wrapped = false ∨ x.cfg.multiline = false := by
  cases hm : x.cfg.multiline with
  | true => exact .inl (h.bare hm)
  | false => exact .inr rfl

theorem sameRows_of {s s' : Parser} {t t' : Mach} (hp : PRel x s t) (hp' : PRel x s' t') (hs : HdrSame t t')
    (hrd : s'.rd = s.rd) : Parser.SameRows s s' := by
  refine ⟨?_, ?_, ?_, fun l => ?_⟩
  · unfold Parser.line; rw [hrd]
  · unfold Parser.position; rw [hrd]
  · rw [hp'.eof, hp.eof, hs.eof]
  · unfold Parser.converter; rw [hrd]

/-- what a call keeps, it keeps as observed -/
theorem step_part {P : Parser → Prop} {op : Op} {s s' : Parser} {o : Obs} (h : Part P (op.exec x s))
    (hs : Parser.step x op s = some (o, s')) : P s' := by
  unfold Parser.step at hs
  cases hm : op.exec x s with
  | ok v t1 => rw [hm] at hs h; cases hs; exact h
  | exc e t1 => rw [hm] at hs h; cases hs; exact h
  | ub => rw [hm] at hs; cases hs
  | nofuel => rw [hm] at hs; cases hs

theorem hdr_rd {s s' : Parser} {o : Obs} (h : Parser.step x .header s = some (o, s')) : s'.rd = s.rd :=
  step_part (op := .header) (Part.bind (Parser.getHeader_rd s) fun _ _ h => h) h

theorem fe_rd {f : Bytes} {s s' : Parser} {o : Obs} (h : Parser.step x (.fieldExists f) s = some (o, s')) : s'.rd = s.rd :=
  step_part (op := .fieldExists f) (Part.bind (Parser.fieldExists_rd s) fun _ _ h => h) h

theorem use_rd (hx : x.Good) {fs : List Bytes} {s s' : Parser} {t t' : Mach} {o o' : Obs} (hp : PRel x s t)
    (h : Parser.step x (.useFields fs) s = some (o, s')) (h' : Mach.step x (.useFields fs) t = some (o', t')) (hf : Failed o') :
    s'.rd = s.rd := by
  have hs := useFields_sim_rd hx fs hp
  unfold Parser.step Op.exec at h
  unfold Mach.step Op.mexec at h'
  simp only at h h'
  cases hm : Mach.useFields x fs t with
  | ok v t1 =>
    rw [hm] at hs
    rw [M.bind_of_ok hm] at h'
    obtain ⟨a, s1, e1, _, _, e2⟩ := hs
    rw [M.bind_of_ok e1] at h
    cases h
    cases h'
    rcases hf with hf | ⟨m, hf⟩
    · exact e2 hf
    · cases hf
  | exc e t1 =>
    rw [hm] at hs
    rw [M.bind_of_exc hm] at h'
    obtain ⟨s1, e1, _, e2⟩ := hs
    rw [M.bind_of_exc e1] at h
    cases h
    exact e2
  | ub => rw [M.bind_apply, hm] at h'; cases h'
  | nofuel => rw [M.bind_apply, hm] at h'; cases h'

/-- the machine of a parser, and what it knows about the header -/
theorem header_at (hx : x.HdrOk) (h : Parser.ReachT x s) :
    ∃ t r, PRel x s t ∧ MInv x t ∧ HdrIs x x.firstRow r ∧ HInv x r t ∧
      match r with
      | .ok cols => x.HeaderIs cols ∧ ∀ cols', x.HeaderIs cols' → cols' = cols
      | .error m => (∀ cols, ¬ x.HeaderIs cols) ∧ x.HeaderBad m ∧ ∀ m', x.cfg.mode ≠ .bool → x.HeaderBad m' → m' = m := by
  obtain ⟨t, hp, hi, hr⟩ := h.sim hx.live
  obtain ⟨r, h1, h2⟩ := header_spec hx.ok hx.plain
  exact ⟨t, r, hp, hi, h1, hr.hinv hx.keeps h1, h2⟩

theorem mstep_fails {r : Except Bytes (List Bytes)} {op : Op} {t : Mach} {α : Type} {m : M Mach α} {f : α → Ret}
    (he : op.mexec x = (m >>= fun v => pure (f v))) (h : MFails x r t (m t)) :
    ∃ o t', Mach.step x op t = some (o, t') ∧ HdrSame t t' ∧ HInv x r t' ∧ Failed o := by
  obtain ⟨t', h1, h2, ⟨e, h3⟩ | ⟨v, h3, h4⟩⟩ := h
  · refine ⟨Mach.observe x (.thrown e) t', t', ?_, h1, h2, .inr ⟨e, rfl⟩⟩
    unfold Mach.step
    rw [he, M.bind_of_exc h3]
  · refine ⟨Mach.observe x (f v) t', t', ?_, h1, h2, .inl h4⟩
    unfold Mach.step
    rw [he, M.bind_of_ok h3]
    rfl

theorem Failed.same {o o' : Obs} (h : ObsSame x o o') : Failed o ↔ Failed o' := by
  unfold Failed
  rw [h.valid, h.ret]

/-! ## C36: `raw_header`, `header`, `field_exists` -/

/-- C36: at any time `raw_header()` is the first row of the input, and the call changes nothing. -/
theorem C36_raw_header (hx : x.HdrOk) (h : Parser.ReachT x s) :
    ∃ o, Parser.step x .rawHeader s = some (o, s) ∧ o.ret = .names [x.firstRow] := by
  obtain ⟨t, r, hp, _, _, hh, _⟩ := header_at hx h
  refine ⟨Parser.observe x (.names [s.rawHeader]) s, rfl, ?_⟩
  show Ret.names [s.rawHeader] = _
  rw [hp.rawHeader, hh.raw]

/-- C36: at any time `header()` returns the columns of the first row, and no error. -/
theorem C36_header (hx : x.HdrOk) (h : Parser.ReachT x s)
    {cols : List Bytes} (hc : x.HeaderIs cols) :
    ∃ o s', Parser.step x .header s = some (o, s') ∧ o.ret = .names cols ∧ o.valid = true ∧ Parser.SameRows s s' := by
  obtain ⟨t, r, hp, hi, hr, hh, hsp⟩ := header_at hx h
  cases r with
  | error m => exact absurd hc (hsp.1 cols)
  | ok cols' =>
    obtain rfl := hsp.2 cols hc
    have hg := getHeader_spec (x := x) (t := t) (hh.raw ▸ hr)
    obtain ⟨o, o', s', t', h1, h2, h3, h4, h5⟩ := step_simT hx.live .header (by intro _ a as h; cases h) hp hi
    have h6 : Mach.step x .header t = some (Mach.observe x (.names cols) { t with err := t.err.clear x.cfg.mode },
        { t with err := t.err.clear x.cfg.mode }) := by
      unfold Mach.step Op.mexec
      simp only
      rw [M.bind_of_ok hg]
      rfl
    rw [h6] at h2
    cases h2
    refine ⟨o, s', h1, h5.ret, ?_, sameRows_of hp h3 ⟨rfl, rfl, rfl⟩ (hdr_rd h1)⟩
    rw [h5.valid]
    exact ErrSt.valid_clear _ _

/-- C36: if the first row cannot be split, `header()` reports just that: an exception, or an invalid parser and an empty
list. -/
theorem C36_bad_header (hx : x.HdrOk) (h : Parser.ReachT x s)
    {m : Bytes} (hc : x.HeaderBad m) :
    ∃ o s', Parser.step x .header s = some (o, s') ∧ Parser.SameRows s s' ∧
      match x.cfg.mode with
      | .throw => o.ret = .thrown (x.fileName ++ bs ": failed header parsing: " ++ m)
      | .string => o.ret = .names [] ∧ o.valid = false ∧ o.msg = x.fileName ++ bs ": failed header parsing: " ++ m
      | .bool => o.ret = .names [] ∧ o.valid = false := by
  obtain ⟨t, r, hp, hi, hr, hh, hsp⟩ := header_at hx h
  cases r with
  | ok cols =>
    exfalso
    obtain ⟨⟨s1, e1, e2, _⟩, _⟩ := hsp
    unfold Ctx.HeaderBad Rejects at hc
    split at hc
    · obtain ⟨_, hc⟩ := hc; rw [e1] at hc; cases hc
    · obtain ⟨_, hc, hv, _⟩ := hc; rw [e1] at hc; cases hc; rw [e2] at hv; cases hv
    · obtain ⟨_, hc, hv⟩ := hc; rw [e1] at hc; cases hc; rw [e2] at hv; cases hv
  | error m' =>
    have hg := getHeader_spec (x := x) (t := t) (hh.raw ▸ hr)
    obtain ⟨o, o', s', t', h1, h2, h3, h4, h5⟩ := step_simT hx.live .header (by intro _ a as h; cases h) hp hi
    simp only at hg
    unfold Mach.Reports at hg
    by_cases hth : x.cfg.mode = .throw
    · rw [if_pos hth] at hg
      have h6 : Mach.step x .header t = some (Mach.observe x (.thrown (failedHeader x m')) { t with err := t.err.clear x.cfg.mode },
          { t with err := t.err.clear x.cfg.mode }) := by
        unfold Mach.step Op.mexec
        simp only
        rw [M.bind_of_exc hg]
      rw [h6] at h2
      cases h2
      refine ⟨o, s', h1, sameRows_of hp h3 ⟨rfl, rfl, rfl⟩ (hdr_rd h1), ?_⟩
      simp only [hth]
      rw [h5.ret, hsp.2.2 m (by simp [hth]) hc]
      rfl
    · rw [if_neg hth] at hg
      generalize ht' : ({ t with err := (t.err.clear x.cfg.mode).set x.cfg.mode (failedHeader x m') } : Mach) = t1
      have hg' : Mach.getHeader x t = .ok [] t1 := by rw [hg, ← ht']
      have h6 : Mach.step x .header t = some (Mach.observe x (.names []) t1, t1) := by
        unfold Mach.step Op.mexec
        simp only
        rw [M.bind_of_ok hg']
        rfl
      rw [h6] at h2
      cases h2
      have hv : o.valid = false := by
        rw [h5.valid]
        show Mach.valid x.cfg _ = false
        rw [← ht']
        exact ErrSt.valid_set hth failedHeader_ne _
      refine ⟨o, s', h1, sameRows_of hp h3 (by rw [← ht']; exact ⟨rfl, rfl, rfl⟩) (hdr_rd h1), ?_⟩
      cases hmode : x.cfg.mode with
      | throw => exact absurd hmode hth
      | bool => exact ⟨h5.ret, hv⟩
      | string =>
        refine ⟨h5.ret, hv, ?_⟩
        rw [h5.msg, hsp.2.2 m (by simp [hmode]) hc]
        show ErrSt.msg (Mach.err _) = _
        rw [← ht', hmode]
        rfl

/-- C36: at any time, with a header without duplicates, `field_exists(f)` tells whether `f` is one of the names. -/
theorem C36_field_exists (hx : x.HdrOk) (h : Parser.ReachT x s)
    {cols : List Bytes} (hc : x.HeaderIs cols) (hn : cols.Nodup) (f : Bytes) :
    ∃ o s', Parser.step x (.fieldExists f) s = some (o, s') ∧ o.ret = .flag (decide (f ∈ cols)) ∧ o.valid = true ∧
      Parser.SameRows s s' := by
  obtain ⟨t, r, hp, hi, hr, hh, hsp⟩ := header_at hx h
  cases r with
  | error m => exact absurd hc (hsp.1 cols)
  | ok cols' =>
    obtain rfl := hsp.2 cols hc
    obtain ⟨o, o', s', t', h1, h2, h3, h4, h5⟩ := step_simT hx.live (.fieldExists f) (by intro _ a as h; cases h) hp hi
    rcases fieldExists_spec hr hh (.inr fun cols' h => by cases h; exact hn) f with ⟨cols', e1, e2, e3⟩ | ⟨e1, _⟩
    · cases e1
      have h6 : Mach.step x (.fieldExists f) t = some (Mach.observe x (.flag (decide (f ∈ cols)))
          { t with err := t.err.clear x.cfg.mode, header := cols }, { t with err := t.err.clear x.cfg.mode, header := cols }) := by
        unfold Mach.step Op.mexec
        simp only
        rw [M.bind_of_ok e3]
        rfl
      rw [h6] at h2
      cases h2
      refine ⟨o, s', h1, h5.ret, ?_, sameRows_of hp h3 ⟨rfl, rfl, rfl⟩ (fe_rd h1)⟩
      rw [h5.valid]
      exact ErrSt.valid_clear _ _
    · exact absurd hn (e1 cols rfl)

/-- C36: with a header that cannot be split or has a duplicate, `field_exists` is an error (and returns false).  Under
`throw_on_error` this is so for a header that cannot be split; after an exception about a duplicate see
`C35_throw_after_duplicate`. -/
theorem C36_field_exists_bad_partial (hx : x.HdrOk) (h : Parser.ReachT x s)
    (hc : ∀ cols, x.HeaderIs cols → ¬ cols.Nodup) (hth : x.cfg.mode ≠ .throw ∨ ∀ cols, ¬ x.HeaderIs cols) (f : Bytes) :
    ∃ o s', Parser.step x (.fieldExists f) s = some (o, s') ∧ Failed o ∧ (o.ret = .flag false ∨ ∃ m, o.ret = .thrown m) ∧
      Parser.SameRows s s' := by
  obtain ⟨t, r, hp, hi, hr, hh, hsp⟩ := header_at hx h
  obtain ⟨o, o', s', t', h1, h2, h3, h4, h5⟩ := step_simT hx.live (.fieldExists f) (by intro _ a as h; cases h) hp hi
  have hd : x.cfg.mode ≠ .throw ∨ ∀ cols, r = .ok cols → cols.Nodup := by
    refine hth.imp id fun h cols hr => ?_
    subst hr
    exact absurd hsp.1 (h cols)
  rcases fieldExists_spec hr hh hd f with ⟨cols, e1, e2, _⟩ | ⟨_, e2, e3⟩
  · subst e1
    exact absurd e2 (hc cols hsp.1)
  · obtain ⟨o1, t1, f1, f2, _, f3⟩ := mstep_fails (op := .fieldExists f) (f := fun b => .flag b) rfl e2
    rw [f1] at h2
    cases h2
    refine ⟨o, s', h1, (Failed.same h5).mpr f3, ?_, sameRows_of hp h3 f2 (fe_rd h1)⟩
    rw [h5.ret]
    unfold Mach.step Op.mexec at f1
    simp only at f1
    cases hfe : Mach.fieldExists x f t with
    | ok b t2 =>
      rw [M.bind_of_ok hfe] at f1
      cases f1
      exact .inl (by rw [e3 b _ hfe]; rfl)
    | exc e t2 =>
      rw [M.bind_of_exc hfe] at f1
      cases f1
      exact .inr ⟨e, rfl⟩
    | ub => rw [M.bind_apply, hfe] at f1; cases f1
    | nofuel => rw [M.bind_apply, hfe] at f1; cases f1

/-- C36: two parsers at the same place deliver the same rows, whatever types are asked for: so no call of `header`,
`raw_header`, `field_exists` (nor a failing `use_fields`) changes what later rows return. -/
theorem C36_same_rows (hx : x.Ok) (hm : x.cfg.multiline = false) {s s' : Parser} (h : Parser.Reach x s) (h' : Parser.Reach x s')
    (hs : Parser.SameRows s s') {reqs : List (List Req)} (hne : ∀ rs ∈ reqs, rs ≠ []) :
    ∃ os os' s1 s1', Parser.run x (reqs.map .getNext) s = some (os, s1) ∧ Parser.run x (reqs.map .getNext) s' = some (os', s1') ∧
      ∀ k, k < reqs.length → ∃ o o', os[k]? = some o ∧ os'[k]? = some o' ∧ o.eof = o'.eof ∧
        (∀ vs, o.ret = .row (some vs) ↔ o'.ret = .row (some vs)) ∧
        (NoRow o ∨ ∃ vs, o.ret = .row (some vs)) ∧ (NoRow o' ∨ ∃ vs, o'.ret = .row (some vs)) := by
  obtain ⟨os, s1, h1, h2⟩ := rows_run hx hm reqs h hne
  obtain ⟨os', s1', h1', h2'⟩ := rows_run hx hm reqs h' hne
  refine ⟨os, os', s1, s1', h1, h1', ?_⟩
  intro k hlt
  obtain ⟨o, e1, e2, e3⟩ := h2 k reqs[k] (List.getElem?_eq_getElem hlt)
  obtain ⟨o', e1', e2', e3'⟩ := h2' k reqs[k] (List.getElem?_eq_getElem hlt)
  rw [hs.line] at e2' e3'
  refine ⟨o, o', e1, e1', by rw [e2, e2'], ?_⟩
  have hno : ∀ {o : Obs}, NoRow o → ∀ vs, o.ret ≠ .row (some vs) := by
    intro o h vs hr
    rcases h with h | ⟨_, h⟩
    · rw [h.1] at hr; cases hr
    · rw [h] at hr; cases hr
  cases hrow : (x.rest s.line)[k]? with
  | none =>
    rw [hrow] at e3 e3'
    exact ⟨fun vs => ⟨fun h => absurd h (hno e3 vs), fun h => absurd h (hno e3' vs)⟩, .inl e3, .inl e3'⟩
  | some l =>
    rw [hrow] at e3 e3'
    simp only at e3 e3'
    rw [fresh_congr rfl rfl (hs.converter l)] at e3'
    refine ⟨fun vs => (e3.1 vs).trans (e3'.1 vs).symm, ?_, ?_⟩
    · rcases e3.2 with ⟨vs, h⟩ | h
      · exact .inr ⟨vs, (e3.1 vs).mpr h⟩
      · exact .inl h
    · rcases e3'.2 with ⟨vs, h⟩ | h
      · exact .inr ⟨vs, (e3'.1 vs).mpr h⟩
      · exact .inl h

/-- C36, with multiline: two parsers at the same place deliver the same rows. -/
theorem C36_same_rows_multiline (hx : x.MlOk) {s s' : Parser} (h : Parser.ReachT x s) (h' : Parser.ReachT x s')
    (hs : Parser.SameRows s s') {reqs : List (List Req)} (hne : ∀ rs ∈ reqs, rs ≠ []) :
    ∃ os os' s1 s1', Parser.run x (reqs.map .getNext) s = some (os, s1) ∧ Parser.run x (reqs.map .getNext) s' = some (os', s1') ∧
      ∀ k, k < reqs.length → ∃ o o', os[k]? = some o ∧ os'[k]? = some o' ∧ o.eof = o'.eof ∧
        (∀ vs, o.ret = .row (some vs) ↔ o'.ret = .row (some vs)) ∧
        (NoRow o ∨ ∃ vs, o.ret = .row (some vs)) ∧ (NoRow o' ∨ ∃ vs, o'.ret = .row (some vs)) := by
  obtain ⟨L, hL, _⟩ := C37_rows_exist x s.line
  obtain ⟨os, s1, h1, h2⟩ := C37_sequence hx reqs h hL hne
  obtain ⟨os', s1', h1', h2'⟩ := C37_sequence hx reqs h' (hs.line.symm ▸ hL) hne
  refine ⟨os, os', s1, s1', h1, h1', ?_⟩
  intro k hlt
  obtain ⟨o, e1, e2, e3⟩ := h2 k reqs[k] (List.getElem?_eq_getElem hlt)
  obtain ⟨o', e1', e2', e3'⟩ := h2' k reqs[k] (List.getElem?_eq_getElem hlt)
  refine ⟨o, o', e1, e1', by rw [e2, e2'], ?_⟩
  have hno : ∀ {o : Obs}, NoRow o → ∀ vs, o.ret ≠ .row (some vs) := by
    intro o h vs hr
    rcases h with h | ⟨_, h⟩
    · rw [h.1] at hr; cases hr
    · rw [h] at hr; cases hr
  have hnn : NoRow o → NoRow o' → (∀ vs, o.ret = .row (some vs) ↔ o'.ret = .row (some vs)) ∧
        (NoRow o ∨ ∃ vs, o.ret = .row (some vs)) ∧ (NoRow o' ∨ ∃ vs, o'.ret = .row (some vs)) := fun a b =>
    ⟨fun vs => ⟨fun h => absurd h (hno a vs), fun h => absurd h (hno b vs)⟩, .inl a, .inl b⟩
  cases hrow : L[k]? with
  | none =>
    rw [hrow] at e3 e3'
    exact hnn e3 e3'
  | some l =>
    rw [hrow] at e3 e3'
    cases l with
    | tooLong => exact hnn e3 e3'
    | unfinished => exact hnn e3 e3'
    | text l =>
      simp only at e3 e3'
      rw [fresh_congr rfl rfl (hs.converter l)] at e3'
      refine ⟨fun vs => (e3.1 vs).trans (e3'.1 vs).symm, ?_, ?_⟩
      · rcases e3.2 with ⟨vs, h⟩ | h
        · exact .inr ⟨vs, (e3.1 vs).mpr h⟩
        · exact .inl h
      · rcases e3'.2 with ⟨vs, h⟩ | h
        · exact .inr ⟨vs, (e3'.1 vs).mpr h⟩
        · exact .inl h

/-! ## C35: when `use_fields` succeeds -/

/-- the machine after a successful `use_fields` -/
theorem selected_rest {fs cols : List Bytes} {t : Mach} (hi : MInv x t) (he : t.eof = false) (e : ErrSt) :
    let t' := Mach.selected x fs { t with err := e, header := cols }
    MInv x t' ∧ t'.rd.sel = fs.map (fun f => cols.idxOf f) ∧ t'.rd.ncols = cols.length ∧
      x.rest t'.line = (if t.line = 0 then (x.rest t.line).drop 1 else x.rest t.line) ∧
      t'.err = e ∧ t'.eof = t.eof := by
  simp only
  unfold Mach.selected
  simp only
  have hl : Mach.line { t with err := e, header := cols } = t.line := rfl
  rw [hl]
  have hs : MInv x ({ t with err := e, header := cols, rd := { t.rd with sel := fs.map (fun f => cols.idxOf f), ncols := cols.length } } : Mach) := by
    have h1 : MInv x { t with err := e, header := cols } := hi.hdr ⟨rfl, rfl, rfl⟩
    exact h1.sel _ _
  by_cases h : t.line = 0
  · rw [if_pos h, if_pos h]
    obtain ⟨r1, r2, r3, r4, r5, r6, r7, r8, r9⟩ := hs.base.read
    refine ⟨hs.read, r6, r7, ?_, rfl, rfl⟩
    have hrest := hs.base.rest_read { t with err := e, header := cols, rd := (MRd.readR x { t.rd with sel := fs.map (fun f => cols.idxOf f), ncols := cols.length }).2 } rfl
    rw [hrest.1]
    show rowsOf x.cfg.ignoreEmpty t.rd.todo = _
    cases hr : x.rest t.line with
    | nil =>
      rcases hi.rest_over hr with h1 | ⟨_, h1⟩
      · rw [he] at h1; cases h1
      · rw [hi.base.todo, List.drop_eq_nil_of_le (Nat.le_of_lt h1.ln)]
        rfl
    | cons l ls =>
      obtain ⟨_, _, _, h4⟩ := hi.rest_here hr
      rw [h4]; rfl
  · rw [if_neg h, if_neg h]
    exact ⟨hs, rfl, rfl, rfl, rfl, rfl⟩

/-- One call of `use_fields`, not at the end of the input (`hd`: under `throw_on_error` the header has no duplicates). -/
theorem useFields_core (hx : x.HdrOk) (h : Parser.ReachT x s)
    (he : s.eof = false) (hd : x.cfg.mode ≠ .throw ∨ ∀ cols, x.HeaderIs cols → cols.Nodup) (fs : List Bytes) :
    ∃ o s', Parser.step x (.useFields fs) s = some (o, s') ∧
      ((∃ cols, x.HeaderIs cols ∧ Selectable cols fs ∧ o.ret = .unit ∧ o.valid = true ∧
          x.rest s'.line = (if s.line = 0 then (x.rest s.line).drop 1 else x.rest s.line) ∧
          s'.eof = false ∧
          ∀ l, s'.converter l = { spl := { mem := l ++ [NUL] }, mappings := fs.map (fun f => cols.idxOf f), ncols := cols.length }) ∨
       ((∀ cols, x.HeaderIs cols → ¬ Selectable cols fs) ∧ Failed o ∧ Parser.SameRows s s')) := by
  obtain ⟨t, r, hp, hi, hr, hh, hsp⟩ := header_at hx h
  obtain ⟨o, o', s', t', h1, h2, h3, h4, h5⟩ := step_simT hx.live (.useFields fs) (by intro _ a as h; cases h) hp hi
  have hd' : x.cfg.mode ≠ .throw ∨ ∀ cols, r = .ok cols → cols.Nodup := by
    refine hd.imp id fun h cols hr => ?_
    subst hr
    exact h cols hsp.1
  have he' : t.eof = false := by rw [← hp.eof]; exact he
  refine ⟨o, s', h1, ?_⟩
  rcases useFields_spec hr hh (.inl he') hd' fs with ⟨cols, e1, e2, e3⟩ | ⟨e1, e2⟩
  · subst e1
    left
    have h6 : Mach.step x (.useFields fs) t = some (Mach.observe x .unit
        (Mach.selected x fs { t with err := t.err.clear x.cfg.mode, header := cols }),
        Mach.selected x fs { t with err := t.err.clear x.cfg.mode, header := cols }) := by
      unfold Mach.step Op.mexec
      simp only
      rw [M.bind_of_ok e3]
      rfl
    rw [h6] at h2
    cases h2
    obtain ⟨f1, f2, f3, f4, f5, f6⟩ := selected_rest (fs := fs) (cols := cols) hi he' (t.err.clear x.cfg.mode)
    refine ⟨cols, hsp.1, e2, h5.ret, ?_, ?_, ?_, fun l => ?_⟩
    · rw [h5.valid]
      show ErrSt.valid x.cfg.mode (Mach.err _) = true
      rw [f5]; exact ErrSt.valid_clear _ _
    · rw [h3.line, hp.line]; exact f4
    · rw [h3.eof, f6]; exact he'
    · unfold Parser.converter
      rw [h3.base.cur.sel, h3.base.cur.ncols, f2, f3]
  · right
    obtain ⟨o1, t1, f1, f2, _, f3⟩ := mstep_fails (op := .useFields fs) (f := fun _ => .unit) rfl e2
    rw [f1] at h2
    cases h2
    refine ⟨?_, (Failed.same h5).mpr f3, sameRows_of hp h3 f2 (use_rd hx.live.good hp h1 f1 f3)⟩
    intro cols hc
    cases r with
    | error m => exact absurd hc (hsp.1 cols)
    | ok cols' => rw [hsp.2 cols hc]; exact e1 cols' rfl

/-- C35: `use_fields` succeeds exactly if the header splits, has no duplicate name, the argument list is not empty and
without repetition, and every name is in the header; otherwise it reports an error (exception or invalid parser).
Not covered: a parser already at its end, and `throw_on_error` with a duplicate in the header (see
`C35_throw_after_duplicate`). -/
theorem C35_success_iff_partial (hx : x.HdrOk) (h : Parser.ReachT x s)
    (he : s.eof = false) (hd : x.cfg.mode ≠ .throw ∨ ∀ cols, x.HeaderIs cols → cols.Nodup) (fs : List Bytes) :
    ∃ o s', Parser.step x (.useFields fs) s = some (o, s') ∧
      ((o.ret = .unit ∧ o.valid = true) ↔ ∃ cols, x.HeaderIs cols ∧ Selectable cols fs) ∧
      (Failed o ↔ ∀ cols, x.HeaderIs cols → ¬ Selectable cols fs) := by
  obtain ⟨o, s', h1, h2⟩ := useFields_core hx h he hd fs
  refine ⟨o, s', h1, ?_⟩
  rcases h2 with ⟨cols, e1, e2, e3, e4, _⟩ | ⟨e1, e2, _⟩
  · refine ⟨⟨fun _ => ⟨cols, e1, e2⟩, fun _ => ⟨e3, e4⟩⟩, ?_, fun h => absurd e2 (h cols e1)⟩
    rintro (h | ⟨m, h⟩)
    · rw [e4] at h; cases h
    · rw [e3] at h; cases h
  · refine ⟨⟨fun h => ?_, fun ⟨cols, h1, h2⟩ => absurd h2 (e1 cols h1)⟩, fun _ => e1, fun _ => e2⟩
    rcases e2 with e2 | ⟨m, e2⟩
    · rw [h.2] at e2; cases e2
    · rw [h.1] at e2; cases e2

/-- C35: a failing `use_fields` leaves the place and the selection as they were, and fails again when repeated. -/
theorem C35_failure_changes_nothing_partial (hx : x.HdrOk) (h : Parser.ReachT x s) (he : s.eof = false) (hd : x.cfg.mode ≠ .throw ∨ ∀ cols, x.HeaderIs cols → cols.Nodup)
    {fs : List Bytes} (hbad : ∀ cols, x.HeaderIs cols → ¬ Selectable cols fs) :
    ∃ o o' s' s'', Parser.step x (.useFields fs) s = some (o, s') ∧ Failed o ∧ Parser.SameRows s s' ∧
      Parser.step x (.useFields fs) s' = some (o', s'') ∧ Failed o' ∧ Parser.SameRows s s'' := by
  obtain ⟨o, s', h1, h2⟩ := useFields_core hx h he hd fs
  rcases h2 with ⟨cols, e1, e2, _⟩ | ⟨_, e2, e3⟩
  · exact absurd e2 (hbad cols e1)
  · obtain ⟨o', s'', h1', h2'⟩ := useFields_core hx (h.step (by intro _ a as h; cases h) h1) (by rw [e3.eof]; exact he) hd fs
    rcases h2' with ⟨cols, e1, e2', _⟩ | ⟨_, e2', e3'⟩
    · exact absurd e2' (hbad cols e1)
    · refine ⟨o, o', s', s'', h1, e2, e3, h1', e2', ?_⟩
      exact ⟨e3'.line.trans e3.line, e3'.position.trans e3.position, e3'.eof.trans e3.eof, fun l => (e3'.converter l).trans (e3.converter l)⟩

/-! ## C51: the header row is not delivered -/

/-- C51: after a successful `use_fields` while `line()` is still 0 (right after construction, possibly after other header
calls), the rows to come are those behind the first one. Not covered: `ignore_empty` with blank lines before the header,
where `line()` is not 0 (see `C51_blank_lines_before_header`). -/
theorem C51_header_row_skipped_partial (hx : x.HdrOk) (h : Parser.ReachT x s) (he : s.eof = false) (hl : s.line = 0) {cols fs : List Bytes} (hc : x.HeaderIs cols)
    (hs : Selectable cols fs) :
    ∃ o s', Parser.step x (.useFields fs) s = some (o, s') ∧ o.valid = true ∧ x.rest s'.line = (x.rest 0).drop 1 := by
  have hnd : ∀ cols', x.HeaderIs cols' → cols'.Nodup := by
    intro cols' h
    obtain ⟨r, _, hr⟩ := header_spec hx.ok hx.plain
    cases r with
    | error m => exact absurd hc (hr.1 cols)
    | ok c => rw [hr.2 cols' h, ← hr.2 cols hc]; exact hs.names
  obtain ⟨o, s', h1, h2⟩ := useFields_core hx h he (.inr hnd) fs
  rcases h2 with ⟨cols', e1, e2, e3, e4, e5, _⟩ | ⟨e1, _⟩
  · refine ⟨o, s', h1, e4, ?_⟩
    rw [e5, if_pos hl, hl]
  · exact absurd hs (e1 cols hc)

/-- C51: a new parser has `line()` = 0 unless `ignore_empty` made it skip blank lines. -/
theorem C51_new_parser_at_line_zero (hx : x.HdrOk) (h : Parser.Created x s) (hf : x.cfg.ignoreEmpty = false ∨ (lines x.src.data).head? ≠ some []) (hne : s.eof = false) :
    s.line = 0 ∧ x.rest 0 ≠ [] := by
  obtain ⟨h1, h2, _, _⟩ := created_rest hx.live.good h
  have hr0 : x.rest 0 ≠ [] := by
    intro h'
    rw [h2, h'] at hne
    cases hne
  refine ⟨?_, hr0⟩
  obtain ⟨t, hn, hp⟩ := h.sim hx.live.good
  rw [hp.line]
  rcases hn with hn | ⟨_, _, e, _, rfl⟩
  · rw [firstLine_eq] at hn
    simp only [hx.keeps, Bool.false_eq_true, if_false] at hn
    cases hn
    have hln : (Mach.first x).rd.ln = 1 := by
      show (MRd.readGo x.cfg.ignoreEmpty (rawLines x.src.data) _).2.ln = 1
      cases hd : rawLines x.src.data with
      | nil =>
        exfalso
        apply hr0
        rw [rest_eq, hd]
        rfl
      | cons l ls =>
        unfold MRd.readGo
        rw [if_neg]
        · rfl
        · rintro ⟨a1, a2⟩
          rcases hf with hf | hf
          · rw [hf] at a1; cases a1
          · apply hf
            unfold lines
            rw [hd]
            simp [a2]
    rw [Mach.line_eq]
    simp only [hln]
  · rw [hp.eof] at hne
    cases hne

/-! ### the selection stays -/

theorem addHeader_rd : ∀ (fs : List Bytes) {t0 t : Mach}, t.rd = t0.rd → Part (fun t' => t'.rd = t0.rd) (Mach.addHeader x fs t) := by
  intro fs
  induction fs with
  | nil => intro t0 t h; exact h
  | cons f fs ih =>
    intro t0 t h
    unfold Mach.addHeader
    refine Part.bind (Part.get h) fun s _ h => Part.ite ?_ ?_
    · refine Part.bind ?_ fun _ _ h => Part.modify h
      unfold Mach.handleError
      cases x.cfg.mode <;> exact h
    · exact Part.bind (Part.modify h) fun _ _ h => ih h

theorem fieldExists_rd {f : Bytes} (t : Mach) : Part (fun t' => t'.rd = t.rd) (Mach.fieldExists x f t) := by
  unfold Mach.fieldExists Mach.clearError
  refine Part.bind (Part.modify rfl) fun _ t1 h => Part.bind ?_ fun _ _ h => Part.bind (Part.get h) fun _ _ h => Part.ite h h
  unfold Mach.splitHeaderDataIf
  split
  · unfold Mach.splitHeaderData
    refine Part.bind ?_ fun o t2 h => ?_
    · unfold Mach.strictSplit
      split
      · split <;> exact h
      · exact h
      · trivial
      · trivial
    · cases o with
      | none => exact h
      | some sp =>
        refine Part.bind ?_ fun _ _ h => addHeader_rd _ h
        unfold Mach.columnsOf
        split
        · exact h
        · trivial
  · exact h

theorem mstep_sel {op : Op} (ho : ∀ fs, op ≠ .useFields fs) {t t' : Mach} {o : Obs} (h : Mach.step x op t = some (o, t')) :
    t'.rd.sel = t.rd.sel ∧ t'.rd.ncols = t.rd.ncols := by
  have hp : Part (fun t' => t'.rd.sel = t.rd.sel ∧ t'.rd.ncols = t.rd.ncols) (op.mexec x t) := by
    by_cases hr : op.rowsOnly = true
    · exact (mexec_keep hr t).mono fun t' h => h.rd
    · cases op with
      | fieldExists f =>
        refine Part.bind ((fieldExists_rd t).mono fun t' h => ?_) fun _ _ h => h
        rw [h]; exact ⟨rfl, rfl⟩
      | useFields fs => exact absurd rfl (ho fs)
      | _ => exact absurd rfl hr
  unfold Mach.step at h
  cases hm : op.mexec x t with
  | ok v t1 => rw [hm] at h hp; cases h; exact hp
  | exc e t1 => rw [hm] at h hp; cases h; exact hp
  | ub => rw [hm] at h; cases h
  | nofuel => rw [hm] at h; cases h

theorem converter_run (hx : x.LiveFor fun n e op => op.Tame x n e) : ∀ (ops : List Op) {s s' : Parser} {os : List Obs},
    Parser.ReachT x s → Parser.Covered x ops s → (∀ op ∈ ops, ∀ fs, op ≠ .useFields fs) → Parser.run x ops s = some (os, s') →
    ∀ l, s'.converter l = s.converter l := by
  intro ops
  induction ops with
  | nil => intro s s' os _ _ _ h l; cases h; rfl
  | cons op ops ih =>
    intro s s' os hs hT ho h l
    obtain ⟨t, hp, hi, _⟩ := hs.sim hx
    obtain ⟨o, o', s1, t1, h1, h2, h3, _⟩ := step_simT hx op hT.1 hp hi
    have hst := mstep_sel (ho op (List.mem_cons_self ..)) h2
    unfold Parser.run at h
    rw [h1] at h
    simp only at h
    cases hrun : Parser.run x ops s1 with
    | none => rw [hrun] at h; cases h
    | some p =>
      obtain ⟨os2, s2⟩ := p
      rw [hrun] at h
      cases h
      rw [ih (hs.step hT.1 h1) (hT.2 _ _ h1)
        (fun op h => ho op (List.mem_cons_of_mem _ h)) hrun l]
      unfold Parser.converter
      rw [h3.base.cur.sel, h3.base.cur.ncols, hp.base.cur.sel, hp.base.cur.ncols, hst.1, hst.2]

/-! ## C34: selected columns -/

/-- `Cells cols fs row ss`: in a row with the columns `row` under the header `cols`, the i-th of `ss` is the column whose
name is the i-th of `fs`. -/
def Cells {α : Type} (cols fs : List Bytes) (row ss : List α) : Prop :=
  ss.length = fs.length ∧ ∀ (i j : Nat) (f : Bytes) (v : α), fs[i]? = some f → cols[j]? = some f → row[j]? = some v → ss[i]? = some v

/-- one row at a parser -/
theorem rowAt_iff (hx : x.Ok) (h : Parser.ReachT x s) {l : Bytes} (hr : x.RowAt s.line l) {rs : List Req} (hrs : rs ≠ []) (vs : List Val) :
    Parser.Yields x (Parser.getNext x rs s) vs ↔ Ssp.Yields x.cfg (s.fresh x rs l) vs := by
  rcases hr with ⟨hm, ls, hr⟩ | ⟨hml, k, hr, rfl⟩
  · exact (C25_row hx hm h.reach hrs hr).1 vs
  · exact (C37_row hml h hrs hr).1 vs

/-- what a converter with the column selection of `use_fields(fs)` makes of the text `l` -/
theorem mapped_iff (hx : x.Ok) {cols fs : List Bytes} (hs : Selectable cols fs) {l : Bytes} (hl : cutNul l ≠ []) {row : List Bytes}
    (hrow : Accepts x.cfg (Spl.split x.cfg x.delim { mem := l ++ [NUL] }) row) {rs : List Req} (vs : List Val) :
    Ssp.Yields x.cfg (Conv.convertLine x.cfg rs x.delim
        { spl := { mem := l ++ [NUL] }, mappings := fs.map (fun f => cols.idxOf f), ncols := cols.length }) vs ↔
      row.length = cols.length ∧ rs.length = fs.length ∧ ∃ ss, Cells cols fs row ss ∧ RowIs rs ss vs := by
  obtain ⟨T, hmem⟩ := cutNul_append_nul l []
  have g : Given x.cfg x.delim (cutNul l) T
      { spl := { mem := l ++ [NUL] }, mappings := fs.map (fun f => cols.idxOf f), ncols := cols.length } := by
    refine ⟨hx.wf, hx.delim, hx.delim0, ⟨hmem, cutNul_nul _, rfl⟩, ?_⟩
    intro i hi
    obtain ⟨f, hf, rfl⟩ := List.mem_map.mp hi
    exact List.idxOf_lt_length_of_mem (hs.known f hf)
  rw [C20_valid_iff g hl hrow]
  have hne : fs.map (fun f => cols.idxOf f) ≠ [] := by simpa using hs.some
  unfold Fits
  rw [if_neg hne]
  have hcell : ∀ ss, Selects (fs.map (fun f => cols.idxOf f)) row ss ↔ Cells cols fs row ss := by
    intro ss
    constructor
    · intro hsel
      generalize hmm : fs.map (fun f => cols.idxOf f) = mm at hsel hne
      cases hsel with
      | all => exact absurd rfl hne
      | some _ hlen hget =>
        refine ⟨by rw [hlen, ← hmm]; simp, ?_⟩
        intro i j f v hi hj hv
        refine hget i j v ?_ hv
        rw [← hmm, List.getElem?_map, hi]
        simp only [Option.map_some, Option.some.injEq]
        have hj' : j < cols.length := by
          false_or_by_contra
          rw [List.getElem?_eq_none (by omega)] at hj; cases hj
        have : cols[j] = f := by rw [List.getElem?_eq_getElem hj'] at hj; exact Option.some.inj hj
        rw [← this]
        exact hs.names.idxOf_getElem j hj'
    · rintro ⟨hlen, hget⟩
      refine .some hne (by simpa using hlen) ?_
      intro k i v hk hv
      rw [List.getElem?_map] at hk
      cases hf : fs[k]? with
      | none => rw [hf] at hk; cases hk
      | some f =>
        rw [hf] at hk
        simp only [Option.map_some, Option.some.injEq] at hk
        refine hget k i f v hf ?_ hv
        rw [← hk]
        have hi := List.idxOf_lt_length_of_mem (hs.known f (List.mem_of_getElem? hf))
        rw [List.getElem?_eq_getElem hi, List.getElem_idxOf hi]
  constructor
  · rintro ⟨⟨a1, a2⟩, ss, a3, a4⟩
    exact ⟨a2, by simpa using a1, ss, (hcell ss).mp a3, a4⟩
  · rintro ⟨a1, a2, ss, a3, a4⟩
    exact ⟨⟨by simpa using a2, a1⟩, ss, (hcell ss).mpr a3, a4⟩

/-- C34: after a successful `use_fields(fs)` and any further calls except `use_fields`, for any row `l` still to come that
is not empty and that a newly made splitter splits into `row`: `get_next` yields the values `vs` exactly if `row` has as
many columns as the header, as many types are requested as fields were given, and `vs` are the conversions of the columns
with the names `fs`, in this order. -/
theorem C34_row (hx : x.HdrOk) (h : Parser.ReachT x s)
    (he : s.eof = false) {cols fs : List Bytes} (hc : x.HeaderIs cols) (hs : Selectable cols fs)
    {o : Obs} {s' s'' : Parser} (hu : Parser.step x (.useFields fs) s = some (o, s'))
    {ops : List Op} {os : List Obs} (hT : Parser.Covered x ops s') (hno : ∀ op ∈ ops, ∀ fs, op ≠ .useFields fs)
    (hrun : Parser.run x ops s' = some (os, s'')) {l : Bytes}
    (hr : x.RowAt s''.line l) (hl : cutNul l ≠ []) {row : List Bytes}
    (hrow : Accepts x.cfg (Spl.split x.cfg x.delim { mem := l ++ [NUL] }) row) {rs : List Req} (hrs : rs ≠ []) (vs : List Val) :
    Parser.Yields x (Parser.getNext x rs s'') vs ↔
      row.length = cols.length ∧ rs.length = fs.length ∧ ∃ ss, Cells cols fs row ss ∧ RowIs rs ss vs := by
  have h' := h.step (by intro _ a as h; cases h) hu
  have h'' := h'.run hT hrun
  have hsame := converter_run hx.live ops h' hT hno hrun
  have hnd : ∀ cols', x.HeaderIs cols' → cols' = cols := by
    intro cols' h
    obtain ⟨r, _, hr⟩ := header_spec hx.ok hx.plain
    cases r with
    | error m => exact absurd hc (hr.1 cols)
    | ok c => rw [hr.2 cols' h, ← hr.2 cols hc]
  obtain ⟨o1, s1, h1, h2⟩ := useFields_core hx h he (.inr fun cols' h => by rw [hnd cols' h]; exact hs.names) fs
  rw [hu] at h1
  cases h1
  rcases h2 with ⟨cols', e1, e2, _, _, _, _, e7⟩ | ⟨e1, _⟩
  · obtain rfl := hnd cols' e1
    rw [rowAt_iff hx.ok h'' hr hrs vs]
    have hconv := (hsame l).trans (e7 l)
    unfold Parser.fresh
    rw [hconv]
    exact mapped_iff hx.ok hs hl hrow vs
  · exact absurd hs (e1 cols hc)

/-- a newly made splitter accepts a text or rejects it, unless it ends inside a quote under multiline -/
theorem accepts_or_rejects {c : Cfg} (hc : c.WF) {delim line T : Bytes} {sp : Spl} (hd : delim ≠ []) (hd0 : NUL ∉ delim)
    (hs : Holds sp line T) (hcl : Closed c delim line) :
    (∃ cols, Accepts c (Spl.split c delim sp) cols) ∨ ∃ m, Rejects c (Spl.split c delim sp) m := by
  have h := split_full hc hd hd0 hs
  cases he : endError c line.length (decodeRow c delim line).2 with
  | none =>
    rw [he] at h
    obtain ⟨s', e1, e2, e3, e4, e5, e6⟩ := h
    left
    have hopen : (decodeRow c delim line).2.isOpenQuote = false := by
      cases hm : c.multiline with
      | true => exact hcl hm
      | false =>
        have := (endError_none_iff (n := 0)).mp he
        cases ho : (decodeRow c delim line).2 with
        | openQuote a => rw [ho, hm] at this; simp [End.stringError] at this
        | _ => rfl
    refine ⟨_, s', e1, by rw [e3]; exact ErrSt.valid_clear _ _, rfl, ?_⟩
    cases hu : s'.unterminatedQuote with
    | false => rfl
    | true =>
      obtain ⟨a, ha⟩ := e4.uq_iff.mp hu
      rw [ha] at hopen; cases hopen
  | some m =>
    rw [he] at h
    obtain ⟨s', _, h⟩ := h
    refine .inr ⟨m, ?_⟩
    unfold Rejects
    by_cases hth : c.mode = .throw
    · rw [if_pos hth] at h; rw [hth]; exact ⟨s', h.1⟩
    · rw [if_neg hth] at h
      have hv : s'.err.valid c.mode = false := by rw [h.2.1]; exact ErrSt.valid_set hth (endError_ne_nil he) _
      cases hm : c.mode with
      | throw => exact absurd hm hth
      | string => exact ⟨s', h.1, by rw [← hm]; exact hv, by rw [h.2.1, hm]; rfl⟩
      | bool => exact ⟨s', h.1, by rw [← hm]; exact hv⟩

theorem rowAt_closed {n : Nat} {l : Bytes} (hr : x.RowAt n l) : Closed x.cfg x.delim (cutNul l) := by
  intro hm
  rcases hr with ⟨h, _⟩ | ⟨hml, k, hr, rfl⟩
  · rw [h] at hm; cases hm
  · cases hd : (decodeRow x.cfg x.delim (cutNul (x.joined n k))).2 with
    | openQuote a => exact absurd (.inr ⟨a, hd⟩) hr.stops
    | _ => rfl

theorem rowAt_fails (hx : x.Ok) (h : Parser.ReachT x s) {l : Bytes} (hr : x.RowAt s.line l) {rs : List Req} (hrs : rs ≠ [])
    (hn : ∀ vs, ¬ Parser.Yields x (Parser.getNext x rs s) vs) : ∃ m, Parser.Fails x (Parser.getNext x rs s) m := by
  have hn' := fun vs => (not_congr (rowAt_iff hx h hr hrs vs)).mp (hn vs)
  rcases hr with ⟨hm, ls, hr⟩ | ⟨hml, k, hr, rfl⟩
  · exact (C25_row hx hm h.reach hrs hr).2.mpr hn'
  · exact (C37_row hml h hrs hr).2.mpr hn'

/-- C34: other rows are errors: empty ones, those that cannot be split, and those with another number of columns than the
header. -/
theorem C34_other_rows (hx : x.HdrOk) (h : Parser.ReachT x s)
    (he : s.eof = false) {cols fs : List Bytes} (hc : x.HeaderIs cols) (hs : Selectable cols fs)
    {o : Obs} {s' s'' : Parser} (hu : Parser.step x (.useFields fs) s = some (o, s'))
    {ops : List Op} {os : List Obs} (hT : Parser.Covered x ops s') (hno : ∀ op ∈ ops, ∀ fs, op ≠ .useFields fs)
    (hrun : Parser.run x ops s' = some (os, s'')) {l : Bytes} (hr : x.RowAt s''.line l)
    (hbad : cutNul l = [] ∨ ∀ row, Accepts x.cfg (Spl.split x.cfg x.delim { mem := l ++ [NUL] }) row → row.length ≠ cols.length)
    {rs : List Req} (hrs : rs ≠ []) :
    (∃ m, Parser.Fails x (Parser.getNext x rs s'') m) ∧ ∀ vs, ¬ Parser.Yields x (Parser.getNext x rs s'') vs := by
  have h'' := (h.step (by intro _ a as h; cases h) hu).run hT hrun
  have hn : ∀ vs, ¬ Parser.Yields x (Parser.getNext x rs s'') vs := by
    intro vs hy
    obtain ⟨T, hmem⟩ := cutNul_append_nul l []
    have hsel : (s''.converter l).SelOk := by
      obtain ⟨t, hp, _, _⟩ := h''.sim hx.live
      show ∀ i ∈ s''.rd.cur.conv.mappings, i < s''.rd.cur.conv.ncols
      rw [hp.base.cur.sel, hp.base.cur.ncols]
      exact hp.base.selok
    have g : Given x.cfg x.delim (cutNul l) T (s''.converter l) :=
      ⟨hx.ok.wf, hx.ok.delim, hx.ok.delim0, ⟨hmem, cutNul_nul _, rfl⟩, hsel⟩
    have hcl := rowAt_closed hr
    have hy' := (rowAt_iff hx.ok h'' hr hrs vs).mp hy
    by_cases hl : cutNul l = []
    · exact C19_empty_line g hl hrs vs hcl hy'
    · have hbad := hbad.resolve_left hl
      rcases accepts_or_rejects g.wf g.delim_ne g.delim_nul g.holds hcl with ⟨row, hrow⟩ | ⟨m, hrej⟩
      · exact hbad row hrow ((C34_row hx h he hc hs hu hT hno hrun hr hl hrow hrs vs).mp hy).1
      · exact fails_not_yields (C20_bad_split g hl hrej) hy'
  exact ⟨rowAt_fails hx.ok h'' hr hrs hn, hn⟩

/-- the value a column with the text `s` contributes to a row -/
def passVal : Req → Bytes → Option Val
  | .void, _ => none
  | .ty t, s => conv t s
  | .valid t q _, s => (conv t s).filter q

theorem Passes.val {r : Req} {s : Bytes} {ov : Option Val} (h : Passes r s ov) : passVal r s = ov := by
  cases h with
  | void => rfl
  | ty h => exact h
  | valid h hq => simp [passVal, h, hq]

theorem RowIs.eq {rs : List Req} {ss : List Bytes} {vs : List Val} (h : RowIs rs ss vs) :
    ss.length = rs.length ∧ (∀ p ∈ ss.zip rs, ∃ ov, Passes p.2 p.1 ov) ∧ vs = (ss.zip rs).filterMap fun p => passVal p.2 p.1 := by
  induction h with
  | nil => exact ⟨rfl, by simp, rfl⟩
  | @cons r s ov rs ss vs hp _ ih =>
    obtain ⟨h1, h2, h3⟩ := ih
    refine ⟨by simp [h1], ?_, ?_⟩
    · intro p hm
      rw [List.zip_cons_cons] at hm
      rcases List.mem_cons.mp hm with rfl | hm
      · exact ⟨ov, hp⟩
      · exact h2 p hm
    · rw [List.zip_cons_cons, List.filterMap_cons, hp.val, ← h3]
      cases ov <;> rfl

theorem RowIs.of : ∀ {rs : List Req} {ss : List Bytes}, ss.length = rs.length → (∀ p ∈ ss.zip rs, ∃ ov, Passes p.2 p.1 ov) →
    RowIs rs ss ((ss.zip rs).filterMap fun p => passVal p.2 p.1) := by
  intro rs
  induction rs with
  | nil => intro ss h _; rw [List.length_nil] at h; rw [List.eq_nil_of_length_eq_zero h]; exact .nil
  | cons r rs ih =>
    intro ss h hp
    cases ss with
    | nil => cases h
    | cons s ss =>
      obtain ⟨ov, ho⟩ := hp (s, r) (by simp)
      have := RowIs.cons ho (ih (by simpa using h) fun p hm => hp p (by rw [List.zip_cons_cons]; exact List.mem_cons_of_mem _ hm))
      rw [List.zip_cons_cons, List.filterMap_cons, ho.val]
      cases ov <;> exact this

/-- the columns with given names, as a function -/
theorem Cells.eq {cols fs row ss : List Bytes} (hk : ∀ f ∈ fs, f ∈ cols) (hl : row.length = cols.length) (h : Cells cols fs row ss) :
    ss = fs.map fun f => row.getD (cols.idxOf f) [] := by
  refine List.ext_getElem (by simpa using h.1) fun i h1 h2 => ?_
  have hi : i < fs.length := by simpa using h2
  have hlt := List.idxOf_lt_length_of_mem (hk fs[i] (List.getElem_mem hi))
  have := h.2 i (cols.idxOf fs[i]) fs[i] (row[cols.idxOf fs[i]]'(by omega)) (List.getElem?_eq_getElem hi)
    (by rw [List.getElem?_eq_getElem hlt, List.getElem_idxOf hlt]) (List.getElem?_eq_getElem _)
  rw [List.getElem?_eq_getElem h1] at this
  rw [Option.some.inj this]
  simp [List.getD_eq_getElem?_getD, List.getElem?_eq_getElem (show cols.idxOf fs[i] < row.length by omega)]

theorem Cells.of {cols fs row : List Bytes} (hn : cols.Nodup) : Cells cols fs row (fs.map fun f => row.getD (cols.idxOf f) []) := by
  refine ⟨by simp, ?_⟩
  intro i j f v hi hj hv
  have hj' : j < cols.length := by
    false_or_by_contra
    rw [List.getElem?_eq_none (by omega)] at hj; cases hj
  have : cols[j] = f := by rw [List.getElem?_eq_getElem hj'] at hj; exact Option.some.inj hj
  rw [List.getElem?_map, hi]
  have hix : cols.idxOf f = j := by rw [← this]; exact hn.idxOf_getElem j hj'
  simp [hix, List.getD_eq_getElem?_getD, hv]

theorem zip_map_l {α β γ : Type} (f : α → β) : ∀ (l : List α) (r : List γ), (l.map f).zip r = (l.zip r).map fun p => (f p.1, p.2) := by
  intro l
  induction l with
  | nil => intro r; rfl
  | cons a l ih => intro r; cases r with
    | nil => rfl
    | cons b r => simp [ih]

/-- C34: selecting the fields in another order permutes the values.  Two selections of the same fields with the same types
for each field, in another order (`fs2`, `rs2` are `fs1`, `rs1` permuted together); at the same row, one yields values
exactly if the other does, and both lists of values come from one function of field and type, in the order of the
selection; so they are permutations of each other. -/
theorem C34_permuted (hx : x.HdrOk)
    {cols : List Bytes} (hc : x.HeaderIs cols) {l : Bytes} (hl : cutNul l ≠ []) {row : List Bytes}
    (hrow : Accepts x.cfg (Spl.split x.cfg x.delim { mem := l ++ [NUL] }) row)
    {s1 s1' s1'' s2 s2' s2'' : Parser} {fs1 fs2 : List Bytes} {rs1 rs2 : List Req} {o1 o2 : Obs} {ops1 ops2 : List Op}
    {os1 os2 : List Obs}
    (h1 : Parser.ReachT x s1) (he1 : s1.eof = false) (hs1 : Selectable cols fs1)
    (hu1 : Parser.step x (.useFields fs1) s1 = some (o1, s1')) (hT1 : Parser.Covered x ops1 s1')
    (hn1 : ∀ op ∈ ops1, ∀ fs, op ≠ .useFields fs)
    (hrun1 : Parser.run x ops1 s1' = some (os1, s1'')) (hr1 : x.RowAt s1''.line l)
    (h2 : Parser.ReachT x s2) (he2 : s2.eof = false) (hs2 : Selectable cols fs2)
    (hu2 : Parser.step x (.useFields fs2) s2 = some (o2, s2')) (hT2 : Parser.Covered x ops2 s2')
    (hn2 : ∀ op ∈ ops2, ∀ fs, op ≠ .useFields fs)
    (hrun2 : Parser.run x ops2 s2' = some (os2, s2'')) (hr2 : x.RowAt s2''.line l)
    (hlen1 : rs1.length = fs1.length) (hlen2 : rs2.length = fs2.length) (hperm : (fs1.zip rs1).Perm (fs2.zip rs2)) :
    ∃ g : Bytes × Req → Option Val,
      (∀ vs, Parser.Yields x (Parser.getNext x rs1 s1'') vs → vs = (fs1.zip rs1).filterMap g) ∧
      (∀ vs, Parser.Yields x (Parser.getNext x rs2 s2'') vs → vs = (fs2.zip rs2).filterMap g) ∧
      ((∃ vs, Parser.Yields x (Parser.getNext x rs1 s1'') vs) ↔ ∃ vs, Parser.Yields x (Parser.getNext x rs2 s2'') vs) ∧
      ∀ vs1 vs2, Parser.Yields x (Parser.getNext x rs1 s1'') vs1 → Parser.Yields x (Parser.getNext x rs2 s2'') vs2 → vs1.Perm vs2 := by
  have hne : ∀ {fs : List Bytes} {rs : List Req}, Selectable cols fs → rs.length = fs.length → rs ≠ [] := by
    intro fs rs hs h hr
    subst hr
    exact hs.some (List.eq_nil_of_length_eq_zero h.symm)
  have e1 := fun vs => C34_row hx h1 he1 hc hs1 hu1 hT1 hn1 hrun1 hr1 hl hrow (hne hs1 hlen1) vs
  have e2 := fun vs => C34_row hx h2 he2 hc hs2 hu2 hT2 hn2 hrun2 hr2 hl hrow (hne hs2 hlen2) vs
  have key : ∀ {fs : List Bytes} {rs : List Req} {vs : List Val}, Selectable cols fs → rs.length = fs.length →
      ((row.length = cols.length ∧ rs.length = fs.length ∧ ∃ ss, Cells cols fs row ss ∧ RowIs rs ss vs) ↔
        row.length = cols.length ∧ (∀ p ∈ fs.zip rs, ∃ ov, Passes p.2 (row.getD (cols.idxOf p.1) []) ov) ∧
          vs = (fs.zip rs).filterMap fun p => passVal p.2 (row.getD (cols.idxOf p.1) [])) := by
    intro fs rs vs hs hlen
    constructor
    · rintro ⟨a1, _, ss, a3, a4⟩
      obtain ⟨_, b2, b3⟩ := a4.eq
      have hss := a3.eq hs.known a1
      rw [hss, zip_map_l] at b2 b3
      refine ⟨a1, fun p hp => ?_, ?_⟩
      · exact b2 (row.getD (cols.idxOf p.1) [], p.2) (List.mem_map.mpr ⟨p, hp, rfl⟩)
      · rw [b3, List.filterMap_map]; rfl
    · rintro ⟨a1, a2, a3⟩
      refine ⟨a1, hlen, _, Cells.of hs.names, ?_⟩
      have := RowIs.of (rs := rs) (ss := fs.map fun f => row.getD (cols.idxOf f) []) (by simp [hlen]) (by
        rw [zip_map_l]
        intro p hp
        obtain ⟨q, hq, rfl⟩ := List.mem_map.mp hp
        exact a2 q hq)
      rw [zip_map_l, List.filterMap_map] at this
      rw [a3]
      exact this
  refine ⟨fun p => passVal p.2 (row.getD (cols.idxOf p.1) []), ?_, ?_, ?_, ?_⟩
  · intro vs h
    exact ((key hs1 hlen1).mp ((e1 vs).mp h)).2.2
  · intro vs h
    exact ((key hs2 hlen2).mp ((e2 vs).mp h)).2.2
  · constructor
    · rintro ⟨vs, h⟩
      obtain ⟨a1, a2, _⟩ := (key hs1 hlen1).mp ((e1 vs).mp h)
      exact ⟨_, (e2 _).mpr ((key hs2 hlen2).mpr ⟨a1, fun p hp => a2 p (hperm.mem_iff.mpr hp), rfl⟩)⟩
    · rintro ⟨vs, h⟩
      obtain ⟨a1, a2, _⟩ := (key hs2 hlen2).mp ((e2 vs).mp h)
      exact ⟨_, (e1 _).mpr ((key hs1 hlen1).mpr ⟨a1, fun p hp => a2 p (hperm.mem_iff.mp hp), rfl⟩)⟩
  · intro vs1 vs2 a b
    rw [((key hs1 hlen1).mp ((e1 vs1).mp a)).2.2, ((key hs2 hlen2).mp ((e2 vs2).mp b)).2.2]
    exact hperm.filterMap _

end

/-! ## Examples and what the code does otherwise -/

namespace Demo
/-- a decidable form of `Accepts` -/
def acceptsB (c : Cfg) (r : Res Spl Unit) (fs : List Bytes) : Bool :=
  match r with
  | .ok _ s => s.err.valid c.mode && s.columns == fs && !s.unterminatedQuote
  | _ => false

theorem accepts_of {c : Cfg} {r : Res Spl Unit} {fs : List Bytes} (h : acceptsB c r fs = true) : Accepts c r fs := by
  unfold acceptsB at h
  cases r with
  | ok u s =>
    simp only [Bool.and_eq_true, beq_iff_eq, Bool.not_eq_true'] at h
    exact ⟨s, rfl, h.1.1, h.1.2, h.2⟩
  | _ => cases h

/-- the data of the examples -/
def table : String := "id,name,age\n1,ann,30\n2,bob,x\n3,cy,40,9\n4,dee,50\n"
end Demo

open Demo in
/-- the header of the example -/
theorem demo_header : (ctx cs table).HeaderIs [bs "id", bs "name", bs "age"] :=
  accepts_of (by decide +kernel)

open Demo in
example : Selectable [bs "id", bs "name", bs "age"] [bs "age", bs "name"] := by
  constructor <;> decide +kernel

open Demo in
/-- `use_fields("age", "name")`: the columns in this order, a bad conversion, a row too wide, another selection -/
example : (runs cs table [.header, .fieldExists (bs "age"), .fieldExists (bs "Age"), .useFields [bs "age", bs "name"], .getNext [num, str],
      .getNext [num, str], .useFields [bs "nope"], .getNext [num, str], .useFields [bs "name", bs "age"], .getNext [str, num]]).map
        (fun o => (o.ret, o.valid, o.line)) =
    [(.names [bs "id", bs "name", bs "age"], true, 0), (.flag true, true, 0), (.flag false, true, 0), (.unit, true, 1),
     (.row (some [.int 30, .str (bs "ann")]), true, 2), (.row none, false, 3), (.unit, false, 3), (.row none, false, 4),
     (.unit, true, 4), (.row (some [.str (bs "dee"), .int 50]), true, 5)] := by
  decide +kernel

open Demo in
/-- C35, found while proving `C35_success_iff_partial`: under `throw_on_error` a header with a duplicate name makes
`use_fields` throw - but the names read so far are kept, so that the same call succeeds when repeated. -/
theorem C35_throw_after_duplicate :
    (runs ct "a,b,a\n1,2,3\n" [.useFields [bs "b"], .useFields [bs "b"], .fieldExists (bs "b")]).map (fun o => (o.ret, o.valid)) =
      [(.thrown (bs "f: header contains duplicate: a"), true), (.unit, true), (.flag true, true)] ∧
    (ctx ct "a,b,a\n1,2,3\n").HeaderIs [bs "a", bs "b", bs "a"] := by
  exact ⟨by decide +kernel, accepts_of (by decide +kernel)⟩

open Demo in
/-- C35: at the end of the input the outcome of `use_fields` depends on whether the header was looked at before. -/
theorem C35_at_end_of_input :
    (runs cs "a,b\n1,2\n" [.getNext [str, str], .getNext [str, str], .useFields [bs "b"], .fieldExists (bs "b"), .useFields [bs "b"]]).map
        (fun o => (o.ret, o.valid, o.eof)) =
      [(.row (some [.str (bs "a"), .str (bs "b")]), true, false), (.row (some [.str (bs "1"), .str (bs "2")]), true, true),
       (.unit, false, true), (.flag true, true, true), (.unit, true, true)] := by
  decide +kernel

open Demo in
/-- C51: with `ignore_empty` and a blank line before the header, `use_fields` does not skip the header: it is the first row
delivered (`line()` is 1 for a new parser). -/
theorem C51_blank_lines_before_header :
    (runs { cs with ignoreEmpty := true } "\na,b\n1,2\n" [.useFields [bs "b"], .getNext [str]]).map (fun o => (o.ret, o.valid)) =
      [(.unit, true), (.row (some [.str (bs "b")]), true)] := by
  decide +kernel

open Demo in
/-- With multiline: the setup, the header and a row of two lines meet the hypotheses; the fields are found in rows of
several lines. -/
example : (ctx cm "id,name,age\n1,\"an\nn\",30\n2,bob,x\n").HdrOk ∧
    (ctx cm "id,name,age\n1,\"an\nn\",30\n2,bob,x\n").HeaderIs [bs "id", bs "name", bs "age"] ∧
    (runs cm "id,name,age\n1,\"an\nn\",30\n2,bob,x\n" [.useFields [bs "age", bs "name"], .getNext [num, str], .getNext [num, str]]).map
        (fun o => (o.ret, o.valid, o.line)) =
      [(.unit, true, 1), (.row (some [.int 30, .str (bs "an\nn")]), true, 3), (.row none, false, 4)] := by
  refine ⟨⟨ok cm cm_wf _, rfl, fun _ => rfl⟩, accepts_of (by decide +kernel), by decide +kernel⟩

open Demo in
/-- C36: options wrapped in `ss::setup<...>` are not stripped of multiline for the header: a header that ends inside a quote
is an error of `header()`, but not if the options are wrapped. -/
theorem C36_wrapped_multiline :
    (runs cm "a,\"b\n1,2\n" [.header]).map (fun o => (o.ret, o.valid)) = [(.names [], false)] ∧
    ((Parser.run { ctx cm "a,\"b\n1,2\n" with wrapped := true } [.header] (start cm "a,\"b\n1,2\n")).map fun r =>
      r.1.map fun o => (o.ret, o.valid)) = some [(.names [bs "a", bs "a,\""], true)] := by
  exact ⟨by decide +kernel, by decide +kernel⟩

end Ssp
