import Verif.Props.RoundTrip
import Verif.Props.ParserHeader
/-!
# Reading back a written table by the names of its columns (C58)
-/
namespace Ssp
open Spec Text

variable {q e : Byte}

/-- a written row is split into its fields -/
theorem written_accepts {c : Cfg} {delim : Bytes} (hc : c.WF) (hd0 : NUL ∉ delim) (ha : Agreed c delim q e) {fs : List Bytes} {t : Bytes}
    (ht : WrittenRow c delim q e fs t) (h0 : NUL ∉ t) : Accepts c (Spl.split c delim { mem := t ++ [NUL] }) fs := by
  obtain ⟨ts, hts, rfl, hne⟩ := ht
  obtain ⟨d0, ds, rfl, hg⟩ := ha.good
  have hfs : fs ≠ [] := by
    rintro rfl
    cases ts with
    | nil => exact hne rfl
    | cons _ _ => exact hts.elim
  exact C04_written_fields_roundtrip hc hg (fun h => hd0 (by simp [h])) hfs (written_fields hc ha hts) ⟨rfl, h0, rfl⟩

theorem Agreed.single {c : Cfg} {delim : Bytes} (ha : Agreed c delim q e) : Agreed c.single delim q e := by
  refine ⟨ha.quote, ha.escape, ?_, ha.tail, ha.quote_eol, ha.escape_eol⟩
  obtain ⟨d0, ds, h, hg⟩ := ha.good
  exact ⟨d0, ds, h, ⟨hg.1, hg.2, hg.3, hg.4, hg.5⟩⟩

theorem writtenFields_single {c : Cfg} {delim : Bytes} : ∀ {fs ts : List Bytes}, WrittenFields c delim q e fs ts → WrittenFields c.single delim q e fs ts
  | [], [], _ => trivial
  | f :: _, t :: _, h => ⟨by
      have := h.1
      cases this with
      | bare hb => exact .bare hb
      | quoted => exact .quoted (c := c.single), writtenFields_single h.2⟩
  | [], _ :: _, h => h.elim
  | _ :: _, [], h => h.elim

theorem rawLines_one {t : Bytes} (h : LF ∉ t) (b : Bool) : rawLines (t ++ eolText b) = [t ++ eolText b] := by
  induction t with
  | nil => cases b <;> decide
  | cons y t ih =>
    have h' : y ≠ LF ∧ LF ∉ t := by simpa [eq_comm] using h
    rw [List.cons_append, rawLines, if_neg h'.1, ih h'.2]

section
variable {x : Ctx} {hd : List Bytes × Bytes × Bool} {tab : Table}

/-- the first row of a written table is its header -/
theorem written_header (hx : x.Ok) (ha : Agreed x.cfg x.delim q e) (hw : Table.Written x.cfg x.delim q e (hd :: tab)) (h1 : LF ∉ hd.2.1)
    (h0 : NUL ∉ Table.text (hd :: tab)) (hdata : x.src.data = Table.text (hd :: tab)) :
    x.HeaderIs hd.1 ∧ x.rest 0 = hd.2.1 :: x.rest 1 ∧ rawLines x.src.data = [hd.2.1 ++ eolText hd.2.2] ++ rawLines tab.text ∧
      (lines x.src.data).head? ≠ some [] := by
  obtain ⟨cols, t, b⟩ := hd
  have hrow : WrittenRow x.cfg x.delim q e cols t := hw (cols, t, b) (by simp)
  have htext : Table.text ((cols, t, b) :: tab) = (t ++ eolText b) ++ Table.text tab := terminated_cons t b _
  have hraw : rawLines x.src.data = [t ++ eolText b] ++ rawLines tab.text := by
    rw [hdata, htext, rawLines_append (.inr (eolText_last t b)), rawLines_one h1 b]
  have hcr : t.getLast? ≠ some CR := by
    obtain ⟨ts, hts, rfl, _⟩ := hrow
    exact fun h => (written_last hx.wf ha hts h).2.1 rfl
  have hl : lines x.src.data = t :: lines tab.text := by
    unfold lines
    rw [hraw]
    simp [chop_eolText hcr b]
  have hne : t ≠ [] := by obtain ⟨_, _, _, h⟩ := hrow; exact h
  have hr0 : x.rest 0 = t :: x.rest 1 := by
    unfold Ctx.rest
    rw [hl]
    simp [hne]
  have hn : NUL ∉ t := fun h => h0 (by rw [htext]; simp [h])
  refine ⟨?_, hr0, hraw, by rw [hl]; simpa using hne⟩
  unfold Ctx.HeaderIs Ctx.splitFirstRow Ctx.firstRow
  rw [hr0]
  obtain ⟨ts, hts, rfl, hne⟩ := hrow
  exact written_accepts (single_wf hx.wf) hx.delim0 ha.single ⟨ts, writtenFields_single hts, rfl, hne⟩ hn

/-- the calls that follow `use_fields` on a written table -/
theorem named_core (hx : x.HdrOk) (ha : Agreed x.cfg x.delim q e) (hw : Table.Written x.cfg x.delim q e (hd :: tab)) (h1 : LF ∉ hd.2.1)
    (h0 : NUL ∉ Table.text (hd :: tab)) (hdata : x.src.data = Table.text (hd :: tab)) {s : Parser} (h : Parser.Created x s)
    {fs : List Bytes} (hs : Selectable hd.1 fs) :
    ∃ o s1, Parser.step x (.useFields fs) s = some (o, s1) ∧ o.ret = .unit ∧ o.valid = true ∧ Parser.ReachT x s1 ∧ 1 ≤ s1.line ∧
      x.rest s1.line = x.rest 1 ∧
      ∀ l, s1.converter l = { spl := { mem := l ++ [NUL] }, mappings := fs.map (fun f => hd.1.idxOf f), ncols := hd.1.length } := by
  obtain ⟨hc, hr0, hraw, hhd⟩ := written_header hx.ok ha hw h1 h0 hdata
  have he : s.eof = false := by rw [(created_rest hx.live.good h).2.1, hr0]; rfl
  obtain ⟨hl, _⟩ := C51_new_parser_at_line_zero hx h (.inr hhd) he
  have hnd : ∀ cols', x.HeaderIs cols' → cols' = hd.1 := by
    intro cols' h
    obtain ⟨r, _, hr⟩ := header_spec hx.ok hx.plain
    cases r with
    | error m => exact absurd hc (hr.1 _)
    | ok c => rw [hr.2 cols' h, ← hr.2 _ hc]
  obtain ⟨o, s1, u1, u2⟩ := useFields_core hx h.reachT he (.inr fun cols' h => by rw [hnd cols' h]; exact hs.names) fs
  rcases u2 with ⟨cols', e1, e2, e3, e4, e5, e6, e7⟩ | ⟨e1, _⟩
  · obtain rfl := hnd cols' e1
    rw [if_pos hl, hl, hr0] at e5
    simp only [List.drop_succ_cons, List.drop_zero] at e5
    refine ⟨o, s1, u1, e3, e4, h.reachT.step (by intro _ a as h; cases h) u1, ?_, e5, e7⟩
    false_or_by_contra
    have h2 : s1.line = 0 := by omega
    rw [h2, hr0] at e5
    simpa using congrArg List.length e5
  · exact absurd hs (e1 _ hc)

/-- C58: A table is written with a header: a first row of names, on one line, then rows of fields (any texts without NUL;
see `Written`; without multiline no field contains an LF).  A new parser with `quote` is told `use_fields(fs)`, with any names
out of the header in any order.  Then the call succeeds, the header is not delivered as a row, and the `k`-th `get_next`
returns the values of those fields of the `k`-th row whose names were given, in the order given (exactly if the row
has as many fields as the header and these fields convert); `eof()` is true exactly from the last row on. -/
theorem C58_named_roundtrip (hx : x.HdrOk) (hlim : x.cfg.multiline = true → Table.WithinLimit x.cfg tab)
    (hlf : x.cfg.multiline = false → ∀ r ∈ tab, LF ∉ r.2.1)
    (ha : Agreed x.cfg x.delim q e) (hw : Table.Written x.cfg x.delim q e (hd :: tab)) (h1 : LF ∉ hd.2.1)
    (h0 : NUL ∉ Table.text (hd :: tab)) (hdata : x.src.data = Table.text (hd :: tab)) {s : Parser} (h : Parser.Created x s)
    {fs : List Bytes} (hs : Selectable hd.1 fs) {reqs : List (List Req)} (hne : ∀ rs ∈ reqs, rs.length = fs.length) :
    ∃ o os s', Parser.run x (.useFields fs :: reqs.map .getNext) s = some (o :: os, s') ∧ o.ret = .unit ∧ o.valid = true ∧
      ∀ k rs r, reqs[k]? = some rs → tab[k]? = some r → ∃ o, os[k]? = some o ∧ o.eof = decide (tab.length ≤ k + 1) ∧
        ∀ vs, o.ret = .row (some vs) ↔ r.1.length = hd.1.length ∧ ∃ ss, Cells hd.1 fs r.1 ss ∧ RowIs rs ss vs := by
  obtain ⟨hc, hr0, hraw, hhd⟩ := written_header hx.ok ha hw h1 h0 hdata
  obtain ⟨o, s1, u1, e3, e4, hreach, hpos, e5, e7⟩ := named_core hx ha hw h1 h0 hdata h hs
  have hne' : ∀ rs ∈ reqs, rs ≠ [] := by
    intro rs hrs h'
    have := hne rs hrs
    rw [h'] at this
    exact hs.some (List.eq_nil_of_length_eq_zero this.symm)
  have hrows : ∃ os s', Parser.run x (reqs.map .getNext) s1 = some (os, s') ∧ ∀ k rs r, reqs[k]? = some rs → tab[k]? = some r →
      ∃ o, os[k]? = some o ∧ o.eof = decide (tab.length ≤ k + 1) ∧ Delivers x o (s1.fresh x rs r.2.1) := by
    cases hml : x.cfg.multiline with
    | true =>
      obtain ⟨d0, ds, hd', hg⟩ := ha.good
      have hx' : x.MlOk := ⟨hx.ok, hml, .inl ⟨hx.ok.delim, by
        intro y hy
        rw [hd'] at hy; cases hy
        exact ⟨hg.quote, hg.escape⟩⟩, ha.escape_eol.2, fun _ _ _ _ => joined_nul (by rw [hdata]; exact h0)⟩
      have hL := written_mlRows (x := x) (by rw [hdata]; exact h0) hx.ok.wf ha (tab := tab) (pre := [hd.2.1 ++ eolText hd.2.2]) (hlim hml)
        (fun r hr => hw r (by simp [hr])) hraw
      obtain ⟨os, s', r1, r2⟩ := C37_sequence hx' reqs hreach (mlRows_same hpos e5.symm hL) hne'
      refine ⟨os, s', r1, fun k rs r hk hr => ?_⟩
      obtain ⟨o', f1, f2, f3⟩ := r2 k rs hk
      rw [List.getElem?_map, hr] at f3
      exact ⟨o', f1, by rw [f2]; simp, f3⟩
    | false =>
      obtain ⟨os, s', r1, r2⟩ := rows_run hx.ok hml reqs hreach.reach hne'
      refine ⟨os, s', r1, fun k rs r hk hr => ?_⟩
      have hrest : x.rest 1 = tab.map (·.2.1) := by
        have hl : (lines x.src.data).drop 1 = tab.map (·.2.1) := by
          have : lines x.src.data = chop (hd.2.1 ++ eolText hd.2.2) :: lines tab.text := by
            unfold lines; rw [hraw]; rfl
          rw [this, List.drop_succ_cons, List.drop_zero, Table.text, lines_terminated, List.map_map]
          · rfl
          · intro l hl
            obtain ⟨r, hr, rfl⟩ := List.mem_map.mp hl
            refine ⟨hlf hml r hr, fun hcr => ?_⟩
            obtain ⟨ts, hts, ht, _⟩ := hw r (List.mem_cons_of_mem _ hr)
            rw [ht] at hcr
            exact (written_last hx.ok.wf ha hts hcr).2.1 rfl
        unfold Ctx.rest
        rw [hl, List.filter_eq_self]
        intro t ht
        obtain ⟨r, hr, rfl⟩ := List.mem_map.mp ht
        obtain ⟨ts, _, _, hne⟩ := hw r (List.mem_cons_of_mem _ hr)
        simp [hne]
      obtain ⟨o', f1, f2, f3⟩ := r2 k rs hk
      rw [e5, hrest, List.getElem?_map, hr] at f3
      exact ⟨o', f1, by rw [f2, e5, hrest]; simp, f3⟩
  obtain ⟨os, s', r1, r2⟩ := hrows
  refine ⟨o, os, s', by simp [Parser.run, u1, r1], e3, e4, ?_⟩
  intro k rs r hk hr
  obtain ⟨o', f1, f2, f3⟩ := r2 k rs r hk hr
  refine ⟨o', f1, f2, fun vs => ?_⟩
  have hmem : r ∈ tab := List.mem_of_getElem? hr
  have hnt : NUL ∉ r.2.1 := by
    intro hn
    refine h0 (List.mem_flatMap.mpr ⟨r.2, List.mem_map_of_mem (List.mem_cons_of_mem _ hmem), ?_⟩)
    simp [hn]
  have hrow := hw r (List.mem_cons_of_mem _ hmem)
  rw [f3.1 vs]
  unfold Parser.fresh
  rw [e7]
  have hcut : cutNul r.2.1 ≠ [] := by
    obtain ⟨_, _, _, hne⟩ := hrow
    rw [cutNul_of_not_mem hnt]
    exact hne
  rw [mapped_iff hx.ok hs hcut (written_accepts hx.ok.wf hx.ok.delim0 ha hrow hnt) vs]
  exact ⟨fun h => ⟨h.1, h.2.2⟩, fun h => ⟨h.1, hne rs (List.mem_of_getElem? hk), h.2⟩⟩

/-! ## Typed tables -/

/-- printed values are converted back -/
theorem C58_printed {t : Ty} {v : Val} {s : Bytes} (h : Prints t v s) : conv t s = some v := by
  induction h with
  | int h => exact C14_integer_roundtrip _ _ h
  | true01 => exact (C15_bool_exact _ _).mpr (.inl ⟨rfl, .inl rfl⟩)
  | false01 => exact (C15_bool_exact _ _).mpr (.inr ⟨rfl, .inl rfl⟩)
  | trueText => exact (C15_bool_exact _ _).mpr (.inl ⟨rfl, .inr rfl⟩)
  | falseText => exact (C15_bool_exact _ _).mpr (.inr ⟨rfl, .inr rfl⟩)
  | char => exact (C15_char_exact _ _).mpr ⟨_, rfl, rfl⟩
  | str => exact C15_string_exact _
  | view => exact C15_view_exact _
  | engaged _ ih => rw [C16_optional_total, ih]
  | @nullopt t s h =>
    rw [C16_optional_total]
    cases hc : conv t s with
    | none => rfl
    | some v => exact absurd hc (h v)
  | @alt ts i t v s hi _ hb ih =>
    have hlt : i < ts.length := by
      false_or_by_contra
      rw [List.getElem?_eq_none (by omega)] at hi; cases hi
    refine (C17_variant_first ts s _).mpr ⟨i, v, hlt, rfl, ?_, fun k hk => ?_⟩
    · rw [List.getElem?_eq_getElem hlt] at hi
      rw [Option.some.inj hi]; exact ih
    · cases hc : conv (ts[k]'(by omega)) s with
      | none => rfl
      | some u => exact absurd hc (hb k _ hk (List.getElem?_eq_getElem _) u)

theorem PrintsRow.rowIs {ts : List Ty} {vs : List Val} {ss : List Bytes} (h : PrintsRow ts vs ss) : RowIs (ts.map .ty) ss vs := by
  induction h with
  | nil => exact .nil
  | cons h _ ih => exact .cons (ov := some _) (.ty (C58_printed h)) ih

theorem PrintsRow.at {ts : List Ty} {vs : List Val} {ss : List Bytes} (h : PrintsRow ts vs ss) :
    ts.length = ss.length ∧ vs.length = ss.length ∧
    ∀ (i : Nat) (t : Ty) (v : Val) (s : Bytes), ts[i]? = some t → vs[i]? = some v → ss[i]? = some s → Prints t v s := by
  induction h with
  | nil => exact ⟨rfl, rfl, by intro i t v s h; simp at h⟩
  | cons h _ ih =>
    refine ⟨by simp [ih.1], by simp [ih.2.1], ?_⟩
    intro i t v s h1 h2 h3
    cases i with
    | zero =>
      simp only [List.getElem?_cons_zero, Option.some.injEq] at h1 h2 h3
      subst h1 h2 h3
      exact h
    | succ i => exact ih.2.2 i t v s (by simpa using h1) (by simpa using h2) (by simpa using h3)

theorem PrintsRow.of : ∀ {ts : List Ty} {vs : List Val} {ss : List Bytes}, ts.length = ss.length → vs.length = ss.length →
    (∀ (i : Nat) (t : Ty) (v : Val) (s : Bytes), ts[i]? = some t → vs[i]? = some v → ss[i]? = some s → Prints t v s) → PrintsRow ts vs ss
  | [], [], [], _, _, _ => .nil
  | t :: ts, v :: vs, s :: ss, h1, h2, h => .cons (h 0 t v s rfl rfl rfl)
      (PrintsRow.of (by simpa using h1) (by simpa using h2) fun i t v s a b c => h (i + 1) t v s (by simpa using a) (by simpa using b) (by simpa using c))
  | [], _ :: _, [], _, h, _ => by simp at h
  | _ :: _, _, [], h, _, _ => by simp at h
  | [], _, _ :: _, h, _, _ => by simp at h
  | _ :: _, [], _ :: _, _, h, _ => by simp at h

/-- the columns of a printed row with the given names are a printed row -/
theorem PrintsRow.cells {cols fs : List Bytes} (hs : Selectable cols fs) {types ts : List Ty} {vals vs : List Val} {row ss : List Bytes}
    (h : PrintsRow types vals row) (hl : row.length = cols.length) (h1 : Cells cols fs types ts) (h2 : Cells cols fs vals vs)
    (h3 : Cells cols fs row ss) : PrintsRow ts vs ss := by
  obtain ⟨l1, l2, hat⟩ := h.at
  refine .of (by rw [h1.1, h3.1]) (by rw [h2.1, h3.1]) ?_
  intro i t v s e1 e2 e3
  have hi : i < fs.length := by
    rw [← h3.1]
    false_or_by_contra
    rw [List.getElem?_eq_none (by omega)] at e3; cases e3
  have hj := List.idxOf_lt_length_of_mem (hs.known fs[i] (List.getElem_mem hi))
  have hcol : cols[cols.idxOf fs[i]]? = some fs[i] := by rw [List.getElem?_eq_getElem hj, List.getElem_idxOf hj]
  have hf := List.getElem?_eq_getElem hi
  have a1 := h1.2 i _ _ _ hf hcol (List.getElem?_eq_getElem (show cols.idxOf fs[i] < types.length by omega))
  have a2 := h2.2 i _ _ _ hf hcol (List.getElem?_eq_getElem (show cols.idxOf fs[i] < vals.length by omega))
  have a3 := h3.2 i _ _ _ hf hcol (List.getElem?_eq_getElem (show cols.idxOf fs[i] < row.length by omega))
  rw [e1] at a1; rw [e2] at a2; rw [e3] at a3
  rw [Option.some.inj a1, Option.some.inj a2, Option.some.inj a3]
  exact hat _ _ _ _ (List.getElem?_eq_getElem _) (List.getElem?_eq_getElem _) (List.getElem?_eq_getElem _)

/-- C58, typed: each column of the table has a type (`types`), and the fields of each row are the printed values of the row.
The `k`-th `get_next` for the types of the named columns returns the values of the named columns of the `k`-th row. -/
theorem C58_typed_roundtrip (hx : x.HdrOk) (hlim : x.cfg.multiline = true → Table.WithinLimit x.cfg tab)
    (hlf : x.cfg.multiline = false → ∀ r ∈ tab, LF ∉ r.2.1)
    (ha : Agreed x.cfg x.delim q e) (hw : Table.Written x.cfg x.delim q e (hd :: tab)) (h1 : LF ∉ hd.2.1)
    (h0 : NUL ∉ Table.text (hd :: tab)) (hdata : x.src.data = Table.text (hd :: tab)) {s : Parser} (h : Parser.Created x s)
    {fs : List Bytes} (hs : Selectable hd.1 fs) {types ts : List Ty} (hlen : types.length = hd.1.length) (hts : Cells hd.1 fs types ts) (n : Nat) :
    ∃ o os s', Parser.run x (.useFields fs :: List.replicate n (.getNext (ts.map .ty))) s = some (o :: os, s') ∧
      o.ret = .unit ∧ o.valid = true ∧
      ∀ k r vals vs, k < n → tab[k]? = some r → PrintsRow types vals r.1 → Cells hd.1 fs vals vs →
        ∃ o, os[k]? = some o ∧ o.ret = .row (some vs) ∧ o.eof = decide (tab.length ≤ k + 1) := by
  obtain ⟨o, os, s', r1, r2, r3, r4⟩ := C58_named_roundtrip hx hlim hlf ha hw h1 h0 hdata h hs
    (reqs := List.replicate n (ts.map .ty)) (by
      intro rs hrs
      rw [List.eq_of_mem_replicate hrs, List.length_map]
      exact hts.1)
  rw [List.map_replicate] at r1
  refine ⟨o, os, s', r1, r2, r3, ?_⟩
  intro k r vals vs hk hr hp hvs
  obtain ⟨o', f1, f2, f3⟩ := r4 k _ r (by rw [List.getElem?_replicate, if_pos hk]) hr
  refine ⟨o', f1, (f3 vs).mpr ?_, f2⟩
  have hl : r.1.length = hd.1.length := by rw [← hp.at.1, hlen]
  have hc := Cells.of (fs := fs) (row := r.1) hs.names
  exact ⟨hl, _, hc, (hp.cells hs hl hts hvs hc).rowIs⟩

end

/-- C58, typed, without a header: the values of every row are read back. -/
theorem C58_typed_table {x : Ctx} (hx : x.Ok)
    (hih : x.cfg.ignoreHeader = false) (ha : Agreed x.cfg x.delim q e) {tab : Table} (hw : tab.Written x.cfg x.delim q e)
    (hlim : x.cfg.multiline = true → tab.WithinLimit x.cfg)
    (hlf : x.cfg.multiline = false → ∀ r ∈ tab, LF ∉ r.2.1)
    (h0 : NUL ∉ tab.text) (hdata : x.src.data = tab.text) {s : Parser} (h : Parser.Created x s)
    {rows : List (List Ty × List Val)} (hrows : All2 (fun p (r : List Bytes × Bytes × Bool) => PrintsRow p.1 p.2 r.1) rows tab) :
    ∃ os s', Parser.run x (rows.map fun p => .getNext (p.1.map .ty)) s = some (os, s') ∧
      os.map (·.ret) = rows.map fun p => .row (some p.2) := by
  have hat : ∀ {k : Nat} {p : List Ty × List Val}, rows[k]? = some p → ∃ r, tab[k]? = some r ∧ PrintsRow p.1 p.2 r.1 := by
    clear hw hlim hlf h0 hdata
    induction hrows with
    | nil => intro k p h; simp at h
    | cons h _ ih =>
      intro k p hk
      cases k with
      | zero => simp at hk; subst hk; exact ⟨_, rfl, h⟩
      | succ k => simpa using ih (k := k) (by simpa using hk)
  have hne : ∀ rs ∈ rows.map (fun p => p.1.map Req.ty), rs ≠ [] := by
    intro rs hrs
    obtain ⟨p, hp, rfl⟩ := List.mem_map.mp hrs
    obtain ⟨k, hk⟩ := List.mem_iff_getElem?.mp hp
    obtain ⟨r, hr, hpr⟩ := hat hk
    obtain ⟨ts, hts, ht, hne⟩ := hw r (List.mem_of_getElem? hr)
    intro h
    have : p.1 = [] := by simpa using h
    have hl := hpr.at.1
    rw [this] at hl
    rw [List.eq_nil_of_length_eq_zero hl.symm] at hts
    cases ts with
    | nil => rw [ht] at hne; exact hne rfl
    | cons _ _ => exact hts.elim
  have hrun : ∃ os s', Parser.run x ((rows.map fun p => p.1.map Req.ty).map .getNext) s = some (os, s') ∧
      ∀ k rs r vs, (rows.map fun p => p.1.map Req.ty)[k]? = some rs → tab[k]? = some r → RowIs rs r.1 vs →
        ∃ o, os[k]? = some o ∧ o.ret = .row (some vs) ∧ o.eof = decide (tab.length ≤ k + 1) := by
    cases hml : x.cfg.multiline with
    | true => exact C55_table_roundtrip hx hml hih ha hw (hlim hml) h0 hdata h hne
    | false => exact C55_table_roundtrip_single hx hml hih ha hw h0 (hlf hml) hdata h hne
  obtain ⟨os, s', g1, g2⟩ := hrun
  rw [List.map_map] at g1
  refine ⟨os, s', g1, ?_⟩
  have hlen : os.length = rows.length := by rw [run_length _ g1]; simp
  refine List.ext_getElem? fun k => ?_
  rw [List.getElem?_map, List.getElem?_map]
  cases hp : rows[k]? with
  | none =>
    have : rows.length ≤ k := List.getElem?_eq_none_iff.mp hp
    rw [List.getElem?_eq_none (by omega)]
    rfl
  | some p =>
    obtain ⟨r, hr, hpr⟩ := hat hp
    obtain ⟨o, e1, e2, _⟩ := g2 k _ r _ (by rw [List.getElem?_map, hp]; rfl) hr hpr.rowIs
    rw [e1, Option.map_some, e2]
    rfl

/-! ## The last row without a terminator -/

theorem All2.at {α β : Type} {R : α → β → Prop} {l : List α} {m : List β} (h : All2 R l m) :
    ∀ {k : Nat} {b : β}, m[k]? = some b → ∃ a, l[k]? = some a ∧ R a b := by
  induction h with
  | nil => intro k b h; simp at h
  | cons h _ ih =>
    intro k b hk
    cases k with
    | zero => simp at hk; subst hk; exact ⟨_, rfl, h⟩
    | succ k => simpa using ih (k := k) (by simpa using hk)

theorem table_text_snoc (init : Table) (r : List Bytes × Bytes × Bool) :
    Table.text (init ++ [r]) = Table.text init ++ r.2.1 ++ eolText r.2.2 := by
  simp [Table.text, terminated, eolText]

/-- the rows without the terminator of the last one are the rows with it -/
theorem open_last {x : Ctx} (hx : x.Ok) (ha : Agreed x.cfg x.delim q e) {init : Table} {last : List Bytes × Bytes × Bool}
    (hw : Table.Written x.cfg x.delim q e (init ++ [last])) (hdata : x.src.data = Table.text init ++ last.2.1)
    {s : Parser} (h : Parser.Created x s) {ops : List Op} (hops : ∀ a as, Op.chain a as ∈ ops → as = []) :
    ∃ y s', Alike x y ∧ y.Ok ∧ y.src.data = Table.text (init ++ [last]) ∧ Parser.Created y s' ∧ RunsAlike x y (AlikeObs x y) s s' ops := by
  obtain ⟨fs, t, b⟩ := last
  obtain ⟨ts, hts, ht, hne⟩ := hw (fs, t, b) (by simp)
  let y : Ctx := { x with src := .buf (some (Table.text (init ++ [(fs, t, b)]))) (Table.text (init ++ [(fs, t, b)])).length }
  have hy : y.Ok := ⟨hx.wf, hx.delim, hx.delim0, rfl⟩
  have hyd : y.src.data = Table.text (init ++ [(fs, t, b)]) := by simp [y, Src.data]
  obtain ⟨s', hs'⟩ := (C54_construction_multiline hy).2.1 _ _ rfl
  have hlast : x.src.data.getLast? = t.getLast? := by
    rw [hdata, List.getLast?_append]
    cases hl : t.getLast? with
    | none => exact absurd (List.getLast?_eq_none_iff.mp hl) hne
    | some _ => rfl
  have hno : ∀ c, x.src.data.getLast? = some c → c ≠ CR ∧ c ≠ LF := by
    intro c hc
    rw [hlast] at hc
    simp only at ht
    rw [ht] at hc
    exact (written_last hx.wf ha hts hc).2
  refine ⟨y, s', ⟨rfl, rfl, rfl⟩, hy, hyd, .buffer rfl hs', ?_⟩
  refine C27_final_newline_partial (x := x) (y := y) ⟨rfl, rfl, rfl⟩ hx hy ?_ (fun hc => (hno _ hc).2 rfl) ?_ h (.buffer rfl hs') (.noOrElse hops)
  · rw [hdata]; exact fun h => hne (List.append_eq_nil_iff.mp h).2
  · rw [hyd, table_text_snoc, hdata]
    cases b with
    | false => exact .inl ⟨rfl, fun hc => (hno _ (by rw [hdata]; exact hc)).1 rfl⟩
    | true => exact .inr rfl

theorem AlikeRet.row {x y : Ctx} {r r' : Ret} (h : AlikeRet x y r r') (vs : Option (List Val)) : r = .row vs ↔ r' = .row vs := by
  rcases h with rfl | ⟨m, m', rfl, rfl, _⟩
  · rfl
  · constructor <;> (intro h; cases h)

/-- C55, the last row without a terminator: the table is read back all the same. -/
theorem C55_open_last_row {x : Ctx} (hx : x.Ok)
    (hih : x.cfg.ignoreHeader = false) (ha : Agreed x.cfg x.delim q e) {init : Table} {last : List Bytes × Bytes × Bool}
    (hw : Table.Written x.cfg x.delim q e (init ++ [last])) (hlim : x.cfg.multiline = true → Table.WithinLimit x.cfg (init ++ [last]))
    (hlf : x.cfg.multiline = false → ∀ r ∈ init ++ [last], LF ∉ r.2.1)
    (hdata : x.src.data = Table.text init ++ last.2.1) (h0 : NUL ∉ x.src.data) {s : Parser} (h : Parser.Created x s)
    {reqs : List (List Req)} (hne : ∀ rs ∈ reqs, rs ≠ []) :
    ∃ os s', Parser.run x (reqs.map .getNext) s = some (os, s') ∧
      ∀ k rs r vs, reqs[k]? = some rs → (init ++ [last])[k]? = some r → RowIs rs r.1 vs →
        ∃ o, os[k]? = some o ∧ o.ret = .row (some vs) ∧ o.eof = decide (init.length ≤ k) := by
  obtain ⟨y, s', hxy, hy, hyd, hcr, _, os, os', s1, s1', r1, r2, r3⟩ := open_last hx ha hw hdata h (ops := reqs.map .getNext) (by simp)
  have hy0 : NUL ∉ Table.text (init ++ [last]) := by
    rw [table_text_snoc]
    rw [hdata] at h0
    simp only [List.mem_append] at h0 ⊢
    rintro ((h | h) | h)
    · exact h0 (.inl h)
    · exact h0 (.inr h)
    · revert h; cases last.2.2 <;> decide
  have hrun : ∃ os s1, Parser.run y (reqs.map .getNext) s' = some (os, s1) ∧
      ∀ k rs r vs, reqs[k]? = some rs → (init ++ [last])[k]? = some r → RowIs rs r.1 vs →
        ∃ o, os[k]? = some o ∧ o.ret = .row (some vs) ∧ o.eof = decide ((init ++ [last]).length ≤ k + 1) := by
    have hcfg := hxy.cfg
    have ha' : Agreed y.cfg y.delim q e := by rw [hcfg, hxy.delim]; exact ha
    have hw' : Table.Written y.cfg y.delim q e (init ++ [last]) := by rw [hcfg, hxy.delim]; exact hw
    cases hml : x.cfg.multiline with
    | true => exact C55_table_roundtrip hy (by rw [hcfg]; exact hml) (by rw [hcfg]; exact hih) ha' hw' (by rw [hcfg]; exact hlim hml) hy0 hyd hcr hne
    | false => exact C55_table_roundtrip_single hy (by rw [hcfg]; exact hml) (by rw [hcfg]; exact hih) ha' hw' hy0 (hlf hml) hyd hcr hne
  obtain ⟨os2, s2, g1, g2⟩ := hrun
  rw [g1] at r2
  cases r2
  refine ⟨os, s1, r1, ?_⟩
  intro k rs r vs hk hr hv
  obtain ⟨o, f1, f2, f3⟩ := g2 k rs r vs hk hr hv
  obtain ⟨o1, a1, a2⟩ := r3.at f1
  refine ⟨o1, a1, (a2.ret.row _).mpr f2, ?_⟩
  rw [a2.eof, f3]
  simp

/-- C58, the last row without a terminator. -/
theorem C58_open_last_row {x : Ctx} {hd : List Bytes × Bytes × Bool} (hx : x.HdrOk)
    (ha : Agreed x.cfg x.delim q e) {init : Table} {last : List Bytes × Bytes × Bool}
    (hlim : x.cfg.multiline = true → Table.WithinLimit x.cfg (init ++ [last]))
    (hlf : x.cfg.multiline = false → ∀ r ∈ init ++ [last], LF ∉ r.2.1)
    (hw : Table.Written x.cfg x.delim q e (hd :: init ++ [last])) (h1 : LF ∉ hd.2.1)
    (hdata : x.src.data = Table.text (hd :: init) ++ last.2.1) (h0 : NUL ∉ x.src.data) {s : Parser} (h : Parser.Created x s)
    {fs : List Bytes} (hs : Selectable hd.1 fs) {reqs : List (List Req)} (hne : ∀ rs ∈ reqs, rs.length = fs.length) :
    ∃ o os s', Parser.run x (.useFields fs :: reqs.map .getNext) s = some (o :: os, s') ∧ o.ret = .unit ∧ o.valid = true ∧
      ∀ k rs r, reqs[k]? = some rs → (init ++ [last])[k]? = some r → ∃ o, os[k]? = some o ∧ o.eof = decide (init.length ≤ k) ∧
        ∀ vs, o.ret = .row (some vs) ↔ r.1.length = hd.1.length ∧ ∃ ss, Cells hd.1 fs r.1 ss ∧ RowIs rs ss vs := by
  obtain ⟨y, s', hxy, hy, hyd, hcr, _, os, os', s1, s1', r1, r2, r3⟩ := open_last hx.ok ha hw hdata h (ops := .useFields fs :: reqs.map .getNext) (by simp)
  have hcfg := hxy.cfg
  have hy0 : NUL ∉ Table.text (hd :: (init ++ [last])) := by
    rw [← List.cons_append, table_text_snoc]
    rw [hdata] at h0
    simp only [List.mem_append] at h0 ⊢
    rintro ((h | h) | h)
    · exact h0 (.inl h)
    · exact h0 (.inr h)
    · revert h; cases last.2.2 <;> decide
  obtain ⟨o, os2, s2, g1, g2, g3, g4⟩ := C58_named_roundtrip (x := y) (tab := init ++ [last])
    ⟨hy, by rw [hcfg]; exact hx.keeps, by rw [hcfg, hxy.wrapped]; exact hx.bare⟩ (by rw [hcfg]; exact hlim) (by rw [hcfg]; exact hlf)
    (by rw [hcfg, hxy.delim]; exact ha) (by rw [hcfg, hxy.delim]; exact hw) h1 hy0 hyd hcr hs hne
  rw [g1] at r2
  cases r2
  cases r3 with
  | @cons o1 _ os1 _ h3 hrest =>
    refine ⟨o1, os1, s1, r1, ?_, by rw [h3.valid]; exact g3, ?_⟩
    · rcases h3.ret with h' | ⟨_, _, _, h', _⟩
      · rw [h', g2]
      · rw [g2] at h'; cases h'
    intro k rs r hk hr
    obtain ⟨o', f1, f2, f3⟩ := g4 k rs r hk hr
    obtain ⟨o2, a1, a2⟩ := hrest.at f1
    refine ⟨o2, a1, by rw [a2.eof, f2]; simp, fun vs => ?_⟩
    rw [a2.ret.row]
    exact f3 vs

/-- a table with a header and three columns; one field has two lines -/
def Demo.people : String := "id,note,\"on\"\n-7,\"a\n\"\"b\"\"\",true\r\n12,,0\n"

open Demo in
/-- C58: two of the columns, in another order -/
example : ∃ o o1 o2 s', Parser.run (ctx cm people) (.useFields [bs "on", bs "id"] ::
        List.replicate 2 (.getNext ([Ty.bool, .int i32].map .ty))) (start cm people) = some (o :: [o1, o2], s') ∧
      o1.ret = .row (some [.bool true, .int (-7)]) ∧ o2.ret = .row (some [.bool false, .int 12]) ∧ o1.eof = false ∧ o2.eof = true := by
  let hd : List Bytes × Bytes × Bool := ([bs "id", bs "note", bs "on"], bs "id,note,\"on\"", false)
  let r1 : List Bytes × Bytes × Bool := ([bs "-7", bs "a\n\"b\"", bs "true"], bs "-7,\"a\n\"\"b\"\"\",true", true)
  let r2 : List Bytes × Bytes × Bool := ([bs "12", bs "", bs "0"], bs "12,,0", false)
  have ha : Agreed cm (bs ",") 34 92 :=
    ⟨rfl, by decide, ⟨44, [], by decide, by constructor <;> decide⟩, by decide, by decide, by decide⟩
  have hw : Table.Written cm (bs ",") 34 92 (hd :: [r1, r2]) := by
    intro r hr
    simp only [List.mem_cons, List.not_mem_nil, or_false] at hr
    rcases hr with rfl | rfl | rfl
    · exact ⟨[bs "id", bs "note", quoteField cm 34 92 (bs "on")], ⟨.bare (by decide), .bare (by decide), .quoted, trivial⟩, by decide +kernel, by decide +kernel⟩
    · exact ⟨[bs "-7", quoteField cm 34 92 (bs "a\n\"b\""), bs "true"], ⟨.bare (by decide), .quoted, .bare (by decide), trivial⟩, by decide +kernel, by decide +kernel⟩
    · exact ⟨[bs "12", bs "", bs "0"], ⟨.bare (by decide), .bare (by decide), .bare (by decide), trivial⟩, by decide +kernel, by decide +kernel⟩
  have hs : Selectable hd.1 [bs "on", bs "id"] := ⟨by decide +kernel, by decide, by decide +kernel, by decide +kernel⟩
  have cells : ∀ {α : Type} (a b c : α), Cells hd.1 [bs "on", bs "id"] [a, b, c] [c, a] := by
    intro α a b c
    refine ⟨rfl, ?_⟩
    have hid : hd.1 = [bs "id", bs "note", bs "on"] := rfl
    have n1 : bs "id" ≠ bs "on" := by decide
    have n2 : bs "note" ≠ bs "on" := by decide
    have n3 : bs "note" ≠ bs "id" := by decide
    intro i j f v h1 h2 h3
    rcases i with _ | _ | i
    · rcases j with _ | _ | _ | j <;> simp_all
    · rcases j with _ | _ | _ | j <;> simp_all
    · simp at h1
  obtain ⟨o, os, s', h1, _, _, h4⟩ := C58_typed_roundtrip (x := ctx cm people) (hd := hd) (tab := [r1, r2]) ⟨ok cm cm_wf _, rfl, fun _ => rfl⟩
    (fun _ h => absurd h (by decide)) (fun h => by cases h) ha hw (by decide +kernel) (by decide +kernel) (by decide +kernel) (createdM cm_wf people) hs
    (types := [.int i32, .str, .bool]) rfl (cells _ _ _) 2
  obtain ⟨o1, a1, a2, a3⟩ := h4 0 r1 [.int (-7), .str (bs "a\n\"b\""), .bool true] _ (by decide) rfl
    (.cons (by have := Prints.int (t := i32) (n := -7) (by simp [IntTy.Represents, i32]); exact this) (.cons .str (.cons .trueText .nil))) (cells _ _ _)
  obtain ⟨o2, b1, b2, b3⟩ := h4 1 r2 [.int 12, .str (bs ""), .bool false] _ (by decide) rfl
    (.cons (by have := Prints.int (t := i32) (n := 12) (by simp [IntTy.Represents, i32]); exact this) (.cons .str (.cons .false01 .nil))) (cells _ _ _)
  have hlen := run_length _ h1
  obtain rfl : os = [o1, o2] := by
    match os, hlen, a1, b1 with
    | [_, _], _, h, h' => simp at h h'; rw [h, h']
  exact ⟨o, o1, o2, s', h1, a2, b2, a3, b3⟩

/-- C55 with `ignore_header`: the first line, whatever it is, is not part of the table, and everything behind it is read back. -/
theorem C55_ignore_header {x : Ctx} (hx : x.Ok) (hih : x.cfg.ignoreHeader = true) (ha : Agreed x.cfg x.delim q e) {tab : Table}
    (hw : tab.Written x.cfg x.delim q e) (hlim : x.cfg.multiline = true → tab.WithinLimit x.cfg)
    (hlf : x.cfg.multiline = false → ∀ r ∈ tab, LF ∉ r.2.1) {l : Bytes} {b : Bool} (hl : LF ∉ l) (hcr : l.getLast? ≠ some CR) (hl0 : l ≠ [])
    (hdata : x.src.data = terminated [(l, b)] ++ tab.text) (h0 : NUL ∉ x.src.data) {s : Parser} (h : Parser.Created x s)
    {reqs : List (List Req)} (hne : ∀ rs ∈ reqs, rs ≠ []) :
    ∃ os s', Parser.run x (reqs.map .getNext) s = some (os, s') ∧
      ∀ k rs r vs, reqs[k]? = some rs → tab[k]? = some r → RowIs rs r.1 vs →
        ∃ o, os[k]? = some o ∧ o.ret = .row (some vs) ∧ o.eof = decide (tab.length ≤ k + 1) := by
  have ht1 : terminated [(l, b)] = l ++ eolText b := by rw [terminated_cons]; simp [terminated]
  have hraw : rawLines x.src.data = [l ++ eolText b] ++ rawLines tab.text := by
    rw [hdata, ht1, rawLines_append (.inr (eolText_last l b))]
    congr 1
    have hR := rawLines_rawList (l ++ eolText b)
    have hc := hR.count (by rw [rawLines_flatten]; exact eolText_last l b)
    have he : (eolText b).count LF = 1 := by cases b <;> decide
    rw [rawLines_flatten, List.count_append, List.count_eq_zero.mpr hl, he] at hc
    have hf := rawLines_flatten (l ++ eolText b)
    match hm : rawLines (l ++ eolText b), hc with
    | [y], _ => rw [hm] at hf; simp at hf; rw [hf]
  have hfirst : (lines x.src.data)[0]? = some l := by
    unfold lines; rw [hraw]; simp [chop_eolText hcr]
  have hst : x.Starts 0 0 := ⟨Nat.le_refl _, ⟨l, hfirst, fun _ => hl0⟩, by intro i _ h2; omega⟩
  have hnt : ∀ r ∈ tab, NUL ∉ r.2.1 := by
    intro r hr hn
    refine h0 ?_
    rw [hdata]
    refine List.mem_append_right _ (List.mem_flatMap.mpr ⟨r.2, List.mem_map_of_mem hr, ?_⟩)
    simp [hn]
  cases hml : x.cfg.multiline with
  | true =>
    obtain ⟨d0, ds, hd, hg⟩ := ha.good
    have hx' : x.MlOk := ⟨hx, hml, .inl ⟨hx.delim, by
      intro y hy
      rw [hd] at hy; cases hy
      exact ⟨hg.quote, hg.escape⟩⟩, ha.escape_eol.2, fun _ _ _ _ => joined_nul h0⟩
    have hL := written_mlRows (x := x) h0 hx.wf ha (tab := tab) (pre := [l ++ eolText b]) (hlim hml) hw hraw
    obtain ⟨os, s', h1, h2⟩ := C37_sequence hx' reqs h.reachT (((C37_new_parser hx' h).2 hih 0 hst).mpr hL) hne
    refine ⟨os, s', h1, ?_⟩
    intro k rs r vs hk hr hv
    obtain ⟨o, e1, e2, e3⟩ := h2 k rs hk
    refine ⟨o, e1, ?_, by rw [e2]; simp⟩
    rw [List.getElem?_map, hr] at e3
    have hmem : r ∈ tab := List.mem_of_getElem? hr
    refine (e3.1 vs).mpr ?_
    unfold Parser.fresh
    rw [(created_rest hx'.live.good h).2.2.1]
    exact written_yields hx ha (hw r hmem) (hnt r hmem) hv
  | false =>
    have hrows : x.rows = tab.map (·.2.1) := by
      have htab : lines tab.text = tab.map (·.2.1) := by
        rw [Table.text, lines_terminated, List.map_map]
        · rfl
        · intro p hp
          obtain ⟨r, hr, rfl⟩ := List.mem_map.mp hp
          refine ⟨hlf hml r hr, fun hcr => ?_⟩
          obtain ⟨ts, hts, ht, _⟩ := hw r hr
          rw [ht] at hcr
          exact (written_last hx.wf ha hts hcr).2.1 rfl
      have hlines : lines x.src.data = l :: tab.map (·.2.1) := by
        rw [← htab]
        unfold lines
        rw [hraw]; simp [chop_eolText hcr]
      unfold Ctx.rows Ctx.rest
      rw [hih, hlines, List.drop_zero, List.filter_cons_of_pos (by cases l with | nil => exact absurd rfl hl0 | cons _ _ => simp)]
      show List.filter _ _ = _
      rw [List.filter_eq_self]
      intro t ht
      obtain ⟨r, hr, rfl⟩ := List.mem_map.mp ht
      obtain ⟨ts, _, _, hne⟩ := hw r hr
      simp [hne]
    obtain ⟨os, s', h1, h2⟩ := C25_sequence hx hml h hne
    refine ⟨os, s', h1, ?_⟩
    intro k rs r vs hk hr hv
    obtain ⟨o, e1, e2, e3⟩ := h2 k rs hk
    refine ⟨o, e1, ?_, by rw [e2, hrows]; simp⟩
    rw [hrows, List.getElem?_map, hr] at e3
    have hmem : r ∈ tab := List.mem_of_getElem? hr
    exact (e3.1 vs).mpr (written_yields hx ha (hw r hmem) (hnt r hmem) hv)

/-- C55, `multiline_restricted<N>` on the other side: a written row with more than `N` line feeds has too many lines (and
`get_next` refuses it, C38), wherever it is in the input. -/
theorem C55_beyond_limit {x : Ctx} (hnul : NUL ∉ x.src.data) (hc : x.cfg.WF) (ha : Agreed x.cfg x.delim q e) {fs : List Bytes} {t : Bytes}
    (hpos : 0 < x.cfg.mlLimit) (hlim : x.cfg.mlLimit < t.count LF) (ht : WrittenRow x.cfg x.delim q e fs t) {pre post : List Bytes} {b : Bool}
    (hraw : rawLines x.src.data = pre ++ (rawLines (t ++ eolText b) ++ post)) : x.RowTooLong pre.length x.cfg.mlLimit := by
  obtain ⟨h1, _, h3, _, _⟩ := written_goesOn hnul hc ha ht hraw
  exact ⟨by omega, h3 _ hlim, ⟨hpos, Nat.le_refl _⟩, fun i hi => ⟨h3 i (by omega), fun h => by have := h.2; omega⟩⟩

open Demo in
/-- the hypotheses are met, with `multiline_restricted<1>`: a field of two lines is within the limit, one of three is not -/
example : ({ cm with mlLimit := 1 } : Cfg).WF ∧
    Table.WithinLimit { cm with mlLimit := 1 } [([bs "a\nb", bs "1"], bs "\"a\nb\",1", true)] ∧
    WrittenRow { cm with mlLimit := 1 } (bs ",") 34 92 [bs "a\nb\nc"] (bs "\"a\nb\nc\"") ∧ 1 < (bs "\"a\nb\nc\"").count LF := by
  refine ⟨?_, fun _ r hr => ?_, ⟨[quoteField cm 34 92 (bs "a\nb\nc")], ⟨.quoted, trivial⟩, by decide +kernel, by decide +kernel⟩, by decide +kernel⟩
  · have := cm_wf
    constructor <;> decide
  · simp only [List.mem_cons, List.not_mem_nil, or_false] at hr
    subst hr
    decide +kernel

open Demo in
/-- the hypotheses of `C55_ignore_header` are met -/
example : ∃ tab : Table, Agreed { cm with ignoreHeader := true } (bs ",") 34 92 ∧ tab.Written { cm with ignoreHeader := true } (bs ",") 34 92 ∧
    bs "x;\"y\n\"a\nb\",1\r\n" = terminated [(bs "x;\"y", false)] ++ tab.text ∧ tab.length = 1 := by
  refine ⟨[([bs "a\nb", bs "1"], bs "\"a\nb\",1", true)], ?_, ?_, by decide +kernel, rfl⟩
  · exact ⟨rfl, by decide, ⟨44, [], by decide, by constructor <;> decide⟩, by decide, by decide, by decide⟩
  · intro r hr
    simp only [List.mem_cons, List.not_mem_nil, or_false] at hr
    subst hr
    exact ⟨[quoteField cm 34 92 (bs "a\nb"), bs "1"], ⟨.quoted, .bare (by decide), trivial⟩, by decide +kernel, by decide +kernel⟩

end Ssp
