import Verif.Proofs.ParserLife
/-!
# The header of a parser
-/
namespace Ssp
open Spec

theorem single_wf {c : Cfg} (h : c.WF) : c.single.WF := { h with ml := by simp [Cfg.single] }

theorem hdrRes_single {x : Ctx} (hx : x.Ok) (hw : x.wrapped = false ∨ x.cfg.multiline = false) (raw : Bytes) :
    hdrRes x raw = (match endError x.cfg.single (cutNul raw).length (decodeRow x.cfg.single x.delim (cutNul raw)).2 with
      | some m => .error m
      | none => .ok (decodeRow x.cfg.single x.delim (cutNul raw)).1) := by
  have hml := headerCfg_multiline hw
  have hc : Parser.headerCfg x = { x.cfg.single with mlLimit := (Parser.headerCfg x).mlLimit } := by
    unfold Parser.headerCfg at *
    split
    · rename_i h
      rw [if_pos h] at hml
      unfold Cfg.single
      rw [← hml]
    · rfl
  unfold hdrRes
  rw [hc]
  rw [decodeRow_congr (c := x.cfg.single) (c' := { x.cfg.single with mlLimit := (Parser.headerCfg x).mlLimit }) ⟨rfl, rfl, rfl, rfl⟩ hx.delim]
  rfl

/-- what `strict_split` finds in the first row -/
theorem header_spec {x : Ctx} (hx : x.Ok) (hw : x.wrapped = false ∨ x.cfg.multiline = false) :
    ∃ r, HdrIs x x.firstRow r ∧
      match r with
      | .ok cols => x.HeaderIs cols ∧ ∀ cols', x.HeaderIs cols' → cols' = cols
      | .error m => (∀ cols, ¬ x.HeaderIs cols) ∧ x.HeaderBad m ∧ ∀ m', x.cfg.mode ≠ .bool → x.HeaderBad m' → m' = m := by
  obtain ⟨r, h1, h2⟩ := strictSplit_spec hx x.firstRow
  refine ⟨r, h2, ?_⟩
  rw [h1 hw, hdrRes_single hx hw]
  obtain ⟨T, hT⟩ := cutNul_append_nul x.firstRow []
  have hs : Holds ({ mem := x.firstRow ++ [NUL] } : Spl) (cutNul x.firstRow) T := ⟨hT, cutNul_nul _, rfl⟩
  have h := split_full (single_wf hx.wf) hx.delim hx.delim0 hs
  unfold Ctx.HeaderIs Ctx.HeaderBad Ctx.splitFirstRow
  have hml : x.cfg.single.multiline = false := rfl
  have hmode : x.cfg.single.mode = x.cfg.mode := rfl
  have hwf := single_wf hx.wf
  rw [← hmode]
  generalize x.cfg.single = c at *
  cases he : endError c (cutNul x.firstRow).length (decodeRow c x.delim (cutNul x.firstRow)).2 with
  | none =>
    rw [he] at h
    obtain ⟨s', e1, e2, e3, e4, e5, e6⟩ := h
    have hopen : (decodeRow c x.delim (cutNul x.firstRow)).2.isOpenQuote = false := by
      have := (endError_none_iff (n := 0)).mp he
      cases ho : (decodeRow c x.delim (cutNul x.firstRow)).2 with
      | openQuote a => rw [ho, hml] at this; simp [End.stringError] at this
      | _ => rfl
    simp only
    refine ⟨⟨s', e1, by rw [e3]; exact ErrSt.valid_clear _ _, e6 hopen, ?_⟩, ?_⟩
    · have hd : decodeRow c x.delim (cutNul x.firstRow) = ((decodeRow c x.delim (cutNul x.firstRow)).1, .eol) := by
        have := (endError_none_iff (n := 0)).mp he
        cases ho : (decodeRow c x.delim (cutNul x.firstRow)).2 with
        | eol => rw [← ho]
        | openQuote a => rw [ho] at hopen; cases hopen
        | _ => rw [ho, hml] at this; simp [End.stringError] at this
      obtain ⟨s2, f1, _, _, f4⟩ := split_accepts hwf hx.delim hx.delim0 hs hd
      rw [e1] at f1; cases f1; exact f4
    · rintro cols ⟨s2, f1, _, f3, _⟩
      rw [e1] at f1; cases f1
      rw [← f3, e6 hopen]
  | some m =>
    rw [he] at h
    obtain ⟨s', _, h⟩ := h
    simp only
    have hbad : Rejects c (Spl.split c x.delim { mem := x.firstRow ++ [NUL] }) m := by
      unfold Rejects
      by_cases hth : c.mode = .throw
      · rw [if_pos hth] at h; rw [hth]; exact ⟨s', h.1⟩
      · rw [if_neg hth] at h
        have hv : s'.err.valid c.mode = false := by rw [h.2.1]; exact ErrSt.valid_set hth (endError_ne_nil he) _
        cases hm : c.mode with
        | throw => exact absurd hm hth
        | string => exact ⟨s', h.1, by rw [← hm]; exact hv, by rw [h.2.1, hm]; rfl⟩
        | bool => exact ⟨s', h.1, by rw [← hm]; exact hv⟩
    refine ⟨?_, hbad, ?_⟩
    · rintro cols ⟨s2, f1, f2, _⟩
      by_cases hth : c.mode = .throw
      · rw [if_pos hth] at h; rw [h.1] at f1; cases f1
      · rw [if_neg hth] at h; rw [h.1] at f1; cases f1
        rw [h.2.1, ErrSt.valid_set hth (endError_ne_nil he)] at f2; cases f2
    · intro m' hb hr
      unfold Rejects at hbad hr
      cases hm : c.mode with
      | throw =>
        rw [hm] at hbad hr
        obtain ⟨_, a1⟩ := hbad; obtain ⟨_, a2⟩ := hr
        rw [a1] at a2; cases a2; rfl
      | string =>
        rw [hm] at hbad hr
        obtain ⟨_, a1, _, a3⟩ := hbad; obtain ⟨_, a2, _, a4⟩ := hr
        rw [a1] at a2; cases a2; rw [← a3, a4]
      | bool => exact absurd hm hb

/-! ## The first row -/

theorem zap_nil : MRd.zap [] = [] := rfl

theorem readGo_firstRow {ie : Bool} : ∀ (ls : List Bytes) (a : MRd), a.look = [] →
    (MRd.readGo ie ls a).2.look = (rowsOf ie ls).headD [] := by
  intro ls
  induction ls with
  | nil => intro a h; simp [MRd.readGo, h, MRd.zap, rowsOf]
  | cons l ls ih =>
    intro a h
    unfold MRd.readGo
    split
    · rename_i hb
      rw [ih]
      · unfold rowsOf
        simp [hb.1, hb.2]
      · simp [MRd.overlay, h]
    · rename_i hb
      unfold rowsOf
      rw [List.map_cons, List.filter_cons_of_pos]
      · rfl
      · cases ie <;> simp_all

theorem first_look (x : Ctx) : (Mach.first x).rd.look = x.firstRow := by
  unfold Mach.first MRd.readR Ctx.firstRow
  simp only
  rw [readGo_firstRow _ _ rfl, rest_eq]
  rfl

/-! ## What is known about the header -/

/-- the names the parser has found: none yet, or those of the first row; after a report of a duplicate under
`throw_on_error` something else -/
structure HInv (x : Ctx) (r : Except Bytes (List Bytes)) (t : Mach) : Prop where
  raw : t.rawHeader = x.firstRow
  names : t.header = [] ∨ ∃ cols, r = .ok cols ∧ if cols.Nodup then t.header = cols else x.cfg.mode = .throw

theorem MNew.hinv {x : Ctx} (hih : x.cfg.ignoreHeader = false) {r : Except Bytes (List Bytes)} {t : Mach} (h : MNew x t) :
    HInv x r t := by
  rcases h with h | ⟨h1, _, e, _, rfl⟩
  · rw [firstLine_eq] at h
    simp only [hih, Bool.false_eq_true, if_false] at h
    cases h
    exact ⟨first_look x, .inl rfl⟩
  · have : x.firstRow = [] := by unfold Ctx.firstRow; rw [rest_eq, h1]; rfl
    exact ⟨this.symm, .inl rfl⟩

/-- the loop of `use_fields` and what follows -/
def Mach.useTail (x : Ctx) (fs : List Bytes) : M Mach Unit := do
  let s ← M.get
  if !s.valid x.cfg then pure ()
  else if fs = [] then Mach.handleError x.cfg (bs "received invalid argument for 'use_fields'")
  else
    match (← Mach.mapFields x fs fs) with
    | none => pure ()
    | some sel =>
      Mach.setMapping sel
      let s ← M.get
      if s.line = 0 then
        let _ ← Mach.onRd (MRd.readNext x)
        pure ()
      else pure ()

theorem useFields_eq (x : Ctx) (fs : List Bytes) (t : Mach) : Mach.useFields x fs t =
    (Mach.splitHeaderDataIf x (fun s => s.header.isEmpty && !s.eof) >>= fun _ => Mach.useTail x fs)
      { t with err := t.err.clear x.cfg.mode } := rfl

/-- the fields are selected -/
def Mach.selected (x : Ctx) (fs : List Bytes) (t : Mach) : Mach :=
  let t1 : Mach := { t with rd := { t.rd with sel := fs.map fun f => t.header.idxOf f, ncols := t.header.length } }
  if t.line = 0 then { t1 with rd := (t1.rd.readR x).2 } else t1

theorem count_eq_one_of_nodup {fs : List Bytes} (h : fs.Nodup) {f : Bytes} (hf : f ∈ fs) : fs.count f = 1 := by
  have := List.nodup_iff_count.mp h f
  have := List.count_pos_iff.mpr hf
  omega

theorem useTail_ok {x : Ctx} {fs : List Bytes} {t : Mach} (hv : t.valid x.cfg = true) (h0 : fs ≠ []) (h1 : fs.Nodup)
    (h2 : ∀ f ∈ fs, f ∈ t.header) : Mach.useTail x fs t = .ok () (t.selected x fs) := by
  unfold Mach.useTail
  simp only [M.get_bind, hv, Bool.not_true, Bool.false_eq_true, if_false, h0]
  rw [M.bind_of_ok (mapFields_ok fun f hf => ⟨count_eq_one_of_nodup h1 hf, h2 f hf⟩)]
  simp only [Mach.setMapping, M.modify_bind, M.get_bind]
  unfold Mach.selected
  simp only
  have hl : Mach.line { t with rd := { t.rd with sel := fs.map fun f => t.header.idxOf f, ncols := t.header.length } } = t.line := rfl
  by_cases h : t.line = 0
  · rw [hl, if_pos h, if_pos h, M.bind_of_ok (onRd_of_ok (MRd.readNext_eq x _))]
    rfl
  · rw [hl, if_neg h, if_neg h]
    rfl

theorem useTail_bad {x : Ctx} {fs : List Bytes} {t : Mach} (hv : t.valid x.cfg = true)
    (h : ¬ (fs ≠ [] ∧ fs.Nodup ∧ ∀ f ∈ fs, f ∈ t.header)) :
    ∃ m, m ≠ [] ∧ Mach.Reports x (Mach.useTail x fs t) m () t := by
  unfold Mach.useTail
  simp only [M.get_bind, hv, Bool.not_true, Bool.false_eq_true, if_false]
  by_cases h0 : fs = []
  · rw [if_pos h0]
    exact ⟨_, by decide, handleError_reports x _ t⟩
  · rw [if_neg h0]
    have hbad : ¬ ∀ f ∈ fs, fs.count f = 1 ∧ f ∈ t.header := by
      intro h'
      refine h ⟨h0, ?_, fun f hf => (h' f hf).2⟩
      rw [List.nodup_iff_count]
      intro a
      by_cases ha : a ∈ fs
      · rw [(h' a ha).1]; exact Nat.le_refl 1
      · rw [List.count_eq_zero.mpr ha]; omega
    obtain ⟨f, _, h | h⟩ := mapFields_bad (x := x) hbad
    · refine ⟨usedTwice x f, ?_, h.2.bind fun t => rfl⟩
      have : bs ": given field used multiple times: " ≠ [] := by decide
      simp [usedTwice, this]
    · refine ⟨notInHeader x f, ?_, h.2.bind fun t => rfl⟩
      have : bs ": header does not contain given field: " ≠ [] := by decide
      simp [notInHeader, this]

theorem failedHeader_ne {x : Ctx} {m : Bytes} : failedHeader x m ≠ [] := by
  have : bs ": failed header parsing: " ≠ [] := by decide
  simp [failedHeader, this]

theorem duplicate_ne {x : Ctx} {m : Bytes} : duplicate x m ≠ [] := by
  have : bs ": header contains duplicate: " ≠ [] := by decide
  simp [duplicate, this]

/-- a failing call on the machine: the rows to come are the same -/
def MFails (x : Ctx) (r : Except Bytes (List Bytes)) (t : Mach) {α : Type} (res : Res Mach α) : Prop :=
  ∃ t', HdrSame t t' ∧ HInv x r t' ∧ ((∃ e, res = .exc e t') ∨ ∃ v, res = .ok v t' ∧ t'.valid x.cfg = false)

theorem MFails.of_reports {x : Ctx} {r : Except Bytes (List Bytes)} {t t1 : Mach} {α : Type} {res : Res Mach α} {m : Bytes} {v : α}
    (hm : m ≠ []) (h : Mach.Reports x res m v t1) (hs : HdrSame t t1) (hi : HInv x r t1) : MFails x r t res := by
  unfold Mach.Reports at h
  split at h
  · exact ⟨t1, hs, hi, .inl ⟨m, h⟩⟩
  · rename_i hth
    refine ⟨_, ?_, ?_, .inr ⟨v, h, ErrSt.valid_set hth hm _⟩⟩
    · exact ⟨hs.rd, hs.rawHeader, hs.eof⟩
    · exact ⟨hi.raw, hi.names⟩

/-- `split_header_data` when needed: the names are known afterwards, or the header is bad -/
theorem names_spec {x : Ctx} {r : Except Bytes (List Bytes)} {t : Mach} (hr : HdrIs x x.firstRow r) (hi : HInv x r t)
    {p : Mach → Bool} (hp : p t = t.header.isEmpty) :
    (∃ cols, r = .ok cols ∧ cols.Nodup ∧ Mach.splitHeaderDataIf x p t = .ok () { t with header := cols }) ∨
    ((∃ e, r = .error e) ∧ t.header = [] ∧
      ∃ m, m ≠ [] ∧ Mach.Reports x (Mach.splitHeaderDataIf x p t) m () t) ∨
    (∃ cols, r = .ok cols ∧ ¬ cols.Nodup ∧ t.header = [] ∧ MFails x r t (Mach.splitHeaderDataIf x p t)) ∨
    (∃ cols, r = .ok cols ∧ ¬ cols.Nodup ∧ x.cfg.mode = .throw ∧ t.header ≠ [] ∧ Mach.splitHeaderDataIf x p t = .ok () t) := by
  unfold Mach.splitHeaderDataIf
  rw [hp]
  by_cases h0 : t.header = []
  · simp only [h0, List.isEmpty_nil, if_true]
    have h := splitHeaderData_spec (hi.raw ▸ hr) h0
    cases r with
    | error m => exact .inr (.inl ⟨⟨_, rfl⟩, trivial, _, failedHeader_ne, h⟩)
    | ok cols =>
      simp only at h
      by_cases hn : cols.Nodup
      · rw [if_pos hn] at h
        exact .inl ⟨cols, rfl, hn, h⟩
      · rw [if_neg hn] at h
        obtain ⟨p, f, _, _, h⟩ := h
        refine .inr (.inr (.inl ⟨cols, rfl, hn, trivial, ?_⟩))
        split at h
        · rename_i hth
          refine ⟨_, ?_, ?_, .inl ⟨_, h⟩⟩
          · exact ⟨rfl, rfl, rfl⟩
          · exact ⟨hi.raw, .inr ⟨cols, rfl, by rw [if_neg hn]; exact hth⟩⟩
        · rename_i hth
          refine ⟨_, ?_, ?_, .inr ⟨_, h, ErrSt.valid_set hth duplicate_ne _⟩⟩
          · exact ⟨rfl, rfl, rfl⟩
          · exact ⟨hi.raw, hi.names⟩
  · have he : t.header.isEmpty = false := by simpa using h0
    simp only [he, Bool.false_eq_true, if_false]
    rcases hi.names with h | ⟨cols, rfl, h⟩
    · exact absurd h h0
    · by_cases hn : cols.Nodup
      · rw [if_pos hn] at h
        exact .inl ⟨cols, rfl, hn, by rw [← h]⟩
      · rw [if_neg hn] at h
        exact .inr (.inr (.inr ⟨cols, rfl, hn, h, h0, trivial⟩))

/-! ## The calls about the header -/

theorem HInv.err {x : Ctx} {r : Except Bytes (List Bytes)} {t : Mach} (h : HInv x r t) (e : ErrSt) : HInv x r { t with err := e } :=
  ⟨h.raw, h.names⟩

theorem MFails.trans {x : Ctx} {r : Except Bytes (List Bytes)} {t t1 : Mach} {α : Type} {res : Res Mach α} (hs : HdrSame t t1)
    (h : MFails x r t1 res) : MFails x r t res := by
  obtain ⟨t', h1, h2, h3⟩ := h
  exact ⟨t', hs.trans h1, h2, h3⟩

theorem MFails.bind {x : Ctx} {r : Except Bytes (List Bytes)} {t t1 : Mach} {α β : Type} {m : M Mach α} {f : α → M Mach β}
    (h : MFails x r t (m t1)) (hf : ∀ v t', t'.valid x.cfg = false → ∃ w, f v t' = .ok w t') : MFails x r t ((m >>= f) t1) := by
  obtain ⟨t', h1, h2, ⟨e, h3⟩ | ⟨v, h3, h4⟩⟩ := h
  · exact ⟨t', h1, h2, .inl ⟨e, M.bind_of_exc h3⟩⟩
  · obtain ⟨w, hw⟩ := hf v t' h4
    exact ⟨t', h1, h2, .inr ⟨w, by rw [M.bind_of_ok h3, hw], h4⟩⟩

theorem useTail_invalid {x : Ctx} {fs : List Bytes} {t : Mach} (h : t.valid x.cfg = false) : Mach.useTail x fs t = .ok () t := by
  unfold Mach.useTail
  simp only [M.get_bind, h, Bool.not_false, if_true]
  rfl

/-- `use_fields`, not at the end of the input; `hd`: no report of a duplicate under `throw_on_error` -/
theorem useFields_spec {x : Ctx} {r : Except Bytes (List Bytes)} {t : Mach} (hr : HdrIs x x.firstRow r) (hi : HInv x r t)
    (he : t.eof = false ∨ t.header ≠ []) (hd : x.cfg.mode ≠ .throw ∨ ∀ cols, r = .ok cols → cols.Nodup) (fs : List Bytes) :
    (∃ cols, r = .ok cols ∧ Selectable cols fs ∧
      Mach.useFields x fs t = .ok () (Mach.selected x fs { t with err := t.err.clear x.cfg.mode, header := cols })) ∨
    ((∀ cols, r = .ok cols → ¬ Selectable cols fs) ∧ MFails x r t (Mach.useFields x fs t)) := by
  rw [useFields_eq]
  have hs : HdrSame t { t with err := t.err.clear x.cfg.mode } := ⟨rfl, rfl, rfl⟩
  have hp : (fun s : Mach => s.header.isEmpty && !s.eof) { t with err := t.err.clear x.cfg.mode } = t.header.isEmpty := by
    rcases he with he | he
    · simp [he]
    · simp [he]
  rcases names_spec hr (hi.err (t.err.clear x.cfg.mode)) (p := fun s : Mach => s.header.isEmpty && !s.eof) hp with
    ⟨cols, h1, h2, h3⟩ | ⟨⟨e1, h1⟩, h2, m, h3, h4⟩ | ⟨cols, h1, h2, h3, h4⟩ | ⟨cols, h1, h2, h3, _⟩
  · rw [M.bind_of_ok h3]
    have hv : Mach.valid x.cfg { t with err := t.err.clear x.cfg.mode, header := cols } = true := ErrSt.valid_clear _ _
    by_cases hsel : Selectable cols fs
    · exact .inl ⟨cols, h1, hsel, useTail_ok hv hsel.some hsel.once hsel.known⟩
    · refine .inr ⟨fun cols' h => by rw [h1] at h; cases h; exact hsel, ?_⟩
      obtain ⟨m, hm, hrep⟩ := useTail_bad (fs := fs) hv (fun h => hsel ⟨h2, h.1, h.2.1, h.2.2⟩)
      refine MFails.of_reports hm hrep ⟨rfl, rfl, rfl⟩ ⟨hi.raw, .inr ⟨cols, h1, ?_⟩⟩
      rw [if_pos h2]
  · refine .inr ⟨fun cols h => (by rw [h] at h1; cases h1), ?_⟩
    refine MFails.bind ?_ (fun _ t' h => ⟨(), useTail_invalid h⟩)
    exact MFails.of_reports h3 h4 hs (hi.err _)
  · refine .inr ⟨fun cols' h => by rw [h1] at h; cases h; exact fun hs => h2 hs.names, ?_⟩
    exact MFails.bind (h4.trans hs) (fun _ t' h => ⟨(), useTail_invalid h⟩)
  · rcases hd with hd | hd
    · exact absurd h3 hd
    · exact absurd (hd cols h1) h2

/-- `field_exists` -/
theorem fieldExists_spec {x : Ctx} {r : Except Bytes (List Bytes)} {t : Mach} (hr : HdrIs x x.firstRow r) (hi : HInv x r t)
    (hd : x.cfg.mode ≠ .throw ∨ ∀ cols, r = .ok cols → cols.Nodup) (f : Bytes) :
    (∃ cols, r = .ok cols ∧ cols.Nodup ∧
      Mach.fieldExists x f t = .ok (decide (f ∈ cols)) { t with err := t.err.clear x.cfg.mode, header := cols }) ∨
    ((∀ cols, r = .ok cols → ¬ cols.Nodup) ∧ MFails x r t (Mach.fieldExists x f t) ∧
      ∀ b t', Mach.fieldExists x f t = .ok b t' → b = false) := by
  have hfe : Mach.fieldExists x f t = (Mach.splitHeaderDataIf x (fun s => s.header.isEmpty) >>= fun _ => do
      let s ← M.get
      if !s.valid x.cfg then pure false
      else pure (s.headerIndex f).isSome) { t with err := t.err.clear x.cfg.mode } := rfl
  have hs : HdrSame t { t with err := t.err.clear x.cfg.mode } := ⟨rfl, rfl, rfl⟩
  rw [hfe]
  have htail : ∀ (u : Unit) (t' : Mach), t'.valid x.cfg = false → (do
      let s ← (M.get : M Mach Mach)
      if !s.valid x.cfg then pure false
      else pure (s.headerIndex f).isSome) t' = .ok false t' := by
    intro _ t' h
    simp only [M.get_bind, h, Bool.not_false, if_true]
    rfl
  have hfalse : ∀ {t1 : Mach}, MFails x r t (Mach.splitHeaderDataIf x (fun s => s.header.isEmpty) t1) → ∀ b t',
      (Mach.splitHeaderDataIf x (fun s => s.header.isEmpty) >>= fun _ => do
        let s ← M.get
        if !s.valid x.cfg then pure false
        else pure (s.headerIndex f).isSome) t1 = .ok b t' → b = false := by
    rintro t1 ⟨t2, _, _, ⟨e, h3⟩ | ⟨v, h3, h4⟩⟩ b t' h
    · rw [M.bind_of_exc h3] at h; cases h
    · rw [M.bind_of_ok h3, htail v t2 h4] at h; cases h; rfl
  rcases names_spec hr (hi.err (t.err.clear x.cfg.mode)) (p := fun s : Mach => s.header.isEmpty) rfl with
    ⟨cols, h1, h2, h3⟩ | ⟨⟨e1, h1⟩, h2, m, h3, h4⟩ | ⟨cols, h1, h2, h3, h4⟩ | ⟨cols, h1, h2, h3, _⟩
  · refine .inl ⟨cols, h1, h2, ?_⟩
    rw [M.bind_of_ok h3]
    have hv : Mach.valid x.cfg { t with err := t.err.clear x.cfg.mode, header := cols } = true := ErrSt.valid_clear _ _
    simp only [M.get_bind, hv, Bool.not_true, Bool.false_eq_true, if_false, Mach.headerIndex]
    by_cases hf : f ∈ cols
    · rw [idxOf?_mem hf]; simp [hf]
    · rw [List.idxOf?_eq_none_iff.mpr hf]; simp [hf]
  · have hF := MFails.of_reports h3 h4 hs (hi.err _)
    exact .inr ⟨fun cols h => (by rw [h] at h1; cases h1), MFails.bind hF (fun v t' h => ⟨_, htail v t' h⟩), hfalse hF⟩
  · have hF := h4.trans hs
    exact .inr ⟨fun cols' h => by rw [h1] at h; cases h; exact h2, MFails.bind hF (fun v t' h => ⟨_, htail v t' h⟩), hfalse hF⟩
  · rcases hd with hd | hd
    · exact absurd h3 hd
    · exact absurd (hd cols h1) h2

/-! ## The invariant is kept -/

theorem HInv.keep {x : Ctx} {r : Except Bytes (List Bytes)} {t t' : Mach} (h : HInv x r t) (hk : Keep t t') : HInv x r t' :=
  ⟨hk.rawHeader.trans h.raw, by rw [hk.header]; exact h.names⟩

theorem MFails.post {x : Ctx} {r : Except Bytes (List Bytes)} {t : Mach} {α : Type} {res : Res Mach α} (h : MFails x r t res) :
    Part (HInv x r) res := by
  obtain ⟨t', _, h2, ⟨e, h3⟩ | ⟨v, h3, _⟩⟩ := h
  · rw [h3]; exact h2
  · rw [h3]; exact h2

theorem splitIf_hinv {x : Ctx} {r : Except Bytes (List Bytes)} {t : Mach} (hr : HdrIs x x.firstRow r) (hi : HInv x r t)
    {p : Mach → Bool} (hp : p t = t.header.isEmpty ∨ p t = false) : Part (HInv x r) (Mach.splitHeaderDataIf x p t) := by
  rcases hp with hp | hp
  · rcases names_spec hr hi hp with
      ⟨cols, h1, h2, h3⟩ | ⟨⟨e1, h1⟩, h2, m, h3, h4⟩ | ⟨cols, h1, h2, h3, h4⟩ | ⟨cols, h1, h2, h3, _, h4⟩
    · rw [h3]; exact ⟨hi.raw, .inr ⟨cols, h1, by rw [if_pos h2]⟩⟩
    · exact (MFails.of_reports h3 h4 ⟨rfl, rfl, rfl⟩ hi).post
    · exact h4.post
    · rw [h4]; exact hi
  · unfold Mach.splitHeaderDataIf
    rw [hp]
    exact hi

theorem mexec_hinv {x : Ctx} {r : Except Bytes (List Bytes)} (hr : HdrIs x x.firstRow r) (op : Op) {t : Mach} (hi : HInv x r t) :
    Part (HInv x r) (op.mexec x t) := by
  by_cases ho : op.rowsOnly = true
  · exact (mexec_keep ho t).mono fun t' h => hi.keep h
  · cases op with
    | fieldExists f =>
      refine Part.bind ?_ fun _ _ h => h
      unfold Mach.fieldExists Mach.clearError
      simp only [M.modify_bind]
      refine Part.bind (splitIf_hinv hr (hi.err _) (.inl rfl)) fun _ _ h => ?_
      exact Part.bind (Part.get h) fun _ _ h => Part.ite h h
    | useFields fs =>
      refine Part.bind ?_ fun _ _ h => h
      rw [useFields_eq]
      refine Part.bind (splitIf_hinv hr (hi.err _) ?_) fun _ t h => ?_
      · simp only
        cases t.eof
        · exact .inl (by simp)
        · exact .inr (by simp)
      · cases hv : t.valid x.cfg with
        | false => rw [useTail_invalid hv]; exact h
        | true =>
          by_cases hg : fs ≠ [] ∧ fs.Nodup ∧ ∀ f ∈ fs, f ∈ t.header
          · rw [useTail_ok hv hg.1 hg.2.1 hg.2.2]
            unfold Mach.selected
            simp only
            split
            · exact ⟨h.raw, h.names⟩
            · exact ⟨h.raw, h.names⟩
          · obtain ⟨m, hm, hrep⟩ := useTail_bad hv hg
            exact (MFails.of_reports hm hrep ⟨rfl, rfl, rfl⟩ h).post
    | _ => exact absurd rfl ho

theorem MReach.hinv {x : Ctx} (hih : x.cfg.ignoreHeader = false) {r : Except Bytes (List Bytes)} (hr : HdrIs x x.firstRow r)
    {t : Mach} (h : MReach x t) : HInv x r t := by
  refine h.ind (fun t h => h.hinv hih) ?_
  intro t op o t' hi hst
  have := mexec_hinv hr op hi
  unfold Mach.step at hst
  cases hm : op.mexec x t with
  | ok v t1 => rw [hm] at hst this; cases hst; exact this
  | exc e t1 => rw [hm] at hst this; cases hst; exact this
  | ub => rw [hm] at hst; cases hst
  | nofuel => rw [hm] at hst; cases hst

/-! ## Calls about the header do not touch the reader -/

theorem RSim.part {σ τ α β : Type} {Q E : σ → τ → Prop} {V : α → β → Prop} {P : σ → Prop} {r : Res σ α} {r' : Res τ β}
    (h : RSim Q E V r r') (hp : Part P r) : RSim (fun s t => Q s t ∧ P s) (fun s t => E s t ∧ P s) V r r' := by
  unfold RSim at *
  cases r' with
  | ok b t => obtain ⟨a, s, rfl, h2, h3⟩ := h; exact ⟨a, s, rfl, h2, h3, hp⟩
  | exc e t => obtain ⟨s, rfl, h2⟩ := h; exact ⟨s, rfl, h2, hp⟩
  | ub => trivial
  | nofuel => trivial

section
variable {x : Ctx}

theorem Parser.handleError_rd {m : Bytes} {s0 s : Parser} (h : s.rd = s0.rd) :
    Part (fun s' : Parser => s'.rd = s0.rd) (Parser.handleError x.cfg m s) := by
  unfold Parser.handleError
  cases x.cfg.mode <;> exact h

theorem Parser.strictSplit_rd {s0 s : Parser} (h : s.rd = s0.rd) :
    Part (fun s' : Parser => s'.rd = s0.rd) (Parser.strictSplit x s) := by
  unfold Parser.strictSplit
  split
  · split <;> exact h
  · exact h
  · trivial
  · trivial

theorem Parser.columnsOf_rd {sp : Spl} {s0 s : Parser} (h : s.rd = s0.rd) :
    Part (fun s' : Parser => s'.rd = s0.rd) (Parser.columnsOf sp s) := by
  unfold Parser.columnsOf
  split
  · exact h
  · trivial

theorem Parser.addHeader_rd : ∀ (fs : List Bytes) {s0 s : Parser}, s.rd = s0.rd →
    Part (fun s' : Parser => s'.rd = s0.rd) (Parser.addHeader x fs s) := by
  intro fs
  induction fs with
  | nil => intro s0 s h; exact h
  | cons f fs ih =>
    intro s0 s h
    unfold Parser.addHeader
    refine Part.bind (Part.get h) fun _ _ h => Part.ite ?_ ?_
    · exact Part.bind (Parser.handleError_rd h) fun _ _ h => Part.modify h
    · exact Part.bind (Part.modify h) fun _ _ h => ih h

theorem Parser.splitHeaderDataIf_rd {p : Parser → Bool} {s0 s : Parser} (h : s.rd = s0.rd) :
    Part (fun s' : Parser => s'.rd = s0.rd) (Parser.splitHeaderDataIf x p s) := by
  unfold Parser.splitHeaderDataIf
  split
  · unfold Parser.splitHeaderData
    refine Part.bind (Parser.strictSplit_rd h) fun o s h => ?_
    cases o with
    | none => exact h
    | some sp => exact Part.bind (Parser.columnsOf_rd h) fun _ _ h => Parser.addHeader_rd _ h
  · exact h

theorem Parser.mapFields_rd (all : List Bytes) : ∀ (fs : List Bytes) {s0 s : Parser}, s.rd = s0.rd →
    Part (fun s' : Parser => s'.rd = s0.rd) (Parser.mapFields x all fs s) := by
  intro fs
  induction fs with
  | nil => intro s0 s h; exact h
  | cons f fs ih =>
    intro s0 s h
    unfold Parser.mapFields
    refine Part.ite ?_ ?_
    · exact Part.bind (Parser.handleError_rd h) fun _ _ h => h
    · refine Part.bind (Part.get h) fun s1 s2 h => ?_
      cases s1.headerIndex f with
      | none => exact Part.bind (Parser.handleError_rd h) fun _ _ h => h
      | some i =>
        refine Part.bind (ih h) fun o _ h => ?_
        cases o <;> exact h

/-- `header()` does not touch the reader -/
theorem Parser.getHeader_rd (s : Parser) : Part (fun s' : Parser => s'.rd = s.rd) (Parser.getHeader x s) := by
  unfold Parser.getHeader Parser.clearError
  refine Part.bind (Part.modify rfl) fun _ s1 h => Part.bind (Parser.strictSplit_rd h) fun o _ h => ?_
  cases o with
  | none => exact h
  | some sp => exact Parser.columnsOf_rd h

/-- `field_exists` does not touch the reader -/
theorem Parser.fieldExists_rd {f : Bytes} (s : Parser) : Part (fun s' : Parser => s'.rd = s.rd) (Parser.fieldExists x f s) := by
  unfold Parser.fieldExists Parser.clearError
  exact Part.bind (Part.modify rfl) fun _ s1 h => Part.bind (Parser.splitHeaderDataIf_rd h) fun _ _ h =>
    Part.bind (Part.get h) fun _ _ h => Part.ite h h

/-- a failing `use_fields` does not touch the reader -/
theorem useFields_sim_rd (hx : x.Good) {s0 : Parser} {t0 : Mach} (fs : List Bytes) (h : PRel x s0 t0) :
    RSim (fun s t => PRel x s t ∧ (t.valid x.cfg = false → s.rd = s0.rd)) (fun s t => PRel x s t ∧ s.rd = s0.rd)
      (fun _ _ => True) (Parser.useFields x fs s0) (Mach.useFields x fs t0) := by
  unfold Parser.useFields Mach.useFields
  simp only [Parser.clearError, Mach.clearError, M.modify_bind]
  have h1 := (splitHeaderDataIf_sim (clearError_rel h) (p := fun s => s.header.isEmpty && !s.eof)
    (p' := fun s => s.header.isEmpty && !s.eof) (by
      show (s0.header.isEmpty && !s0.eof) = (t0.header.isEmpty && !t0.eof); rw [h.header, h.eof])).part
    (Parser.splitHeaderDataIf_rd (s0 := s0) rfl)
  refine h1.bind fun _ s _ t _ h => ?_
  obtain ⟨h, hrd⟩ := h
  simp only [M.get_bind]
  rw [h.valid]
  split
  · exact .ok trivial ⟨h, fun _ => hrd⟩
  · rename_i hv
    split
    · have := (handleError_sim (x := x) (bs "received invalid argument for 'use_fields'") h (Q := PRel x) (E := PRel x) (fun _ _ h => h) (fun _ _ h => h)).part
        (Parser.handleError_rd hrd)
      exact this.mono (fun _ _ h => ⟨h.1, fun _ => h.2⟩) fun _ _ h => h
    · have h2 := (mapFields_sim fs fs h).part (Parser.mapFields_rd fs fs hrd)
      have hval : ∀ sel t', Mach.mapFields x fs fs t = .ok (some sel) t' → t'.valid x.cfg = true := by
        intro sel t' hm
        by_cases hg : ∀ f ∈ fs, fs.count f = 1 ∧ f ∈ t.header
        · rw [mapFields_ok hg] at hm
          cases hm
          simpa using hv
        · exfalso
          obtain ⟨f, _, h | h⟩ := mapFields_bad (x := x) hg
          all_goals
            have h := h.2
            unfold Mach.Reports at h
            split at h <;> rw [h] at hm <;> cases hm
      generalize hmf : Mach.mapFields x fs fs t = mf at h2
      cases mf with
      | ub => simp [M.bind_apply, hmf, RSim]
      | nofuel => simp [M.bind_apply, hmf, RSim]
      | exc e t' =>
        obtain ⟨s', e1, e2⟩ := h2
        rw [M.bind_of_exc e1, M.bind_of_exc hmf]
        exact .exc e2
      | ok b t' =>
        obtain ⟨a, s', e1, ⟨rfl, hv2⟩, ⟨h', hh⟩, hrd'⟩ := h2
        rw [M.bind_of_ok e1, M.bind_of_ok hmf]
        cases a with
        | none => exact .ok trivial ⟨h', fun _ => hrd'⟩
        | some sel =>
          have hvt := hval sel t' hmf
          obtain ⟨s'', e1, e2⟩ := setMapping_rel sel h' (by rw [hh]; exact hv2 _ rfl)
          simp only
          rw [M.bind_of_ok e1, M.bind_of_ok (show Mach.setMapping sel t' = .ok () _ from rfl)]
          simp only [M.get_bind]
          rw [e2.line]
          split
          · have h3 := ignoreNext_sim hx e2 (E := fun s t => PRel x s t ∧ s.rd = s0.rd)
            have h4 := MRd.readNext_eq x (Mach.rd { t' with rd := { t'.rd with sel := sel, ncols := t'.header.length } })
            rw [onRd_of_ok h4] at h3
            obtain ⟨b, s3, e3, _, e4⟩ := h3
            rw [M.bind_of_ok e3, M.bind_of_ok (onRd_of_ok h4)]
            refine .ok trivial ⟨e4, fun hf => ?_⟩
            have hf : ErrSt.valid x.cfg.mode t'.err = false := hf
            unfold Mach.valid at hvt
            rw [hvt] at hf
            cases hf
          · refine .ok trivial ⟨e2, fun hf => ?_⟩
            have hf : ErrSt.valid x.cfg.mode t'.err = false := hf
            unfold Mach.valid at hvt
            rw [hvt] at hf
            cases hf

end

end Ssp
