import Verif.Props.ParserChainMl
import Verif.Props.ConvertModes
/-! # C39 and C26 with multiline, C73: rows of one line -/
namespace Ssp

theorem NoRow.ret {o : Obs} (h : NoRow o) (vs : List Val) : o.ret ≠ .row (some vs) := by
  intro hr
  rcases h with h | ⟨_, h⟩
  · rw [h.1] at hr; cases hr
  · rw [h] at hr; cases hr

theorem obs_same_no {o o' : Obs} (a : NoRow o) (b : NoRow o') :
    (∀ vs, o.ret = .row (some vs) ↔ o'.ret = .row (some vs)) ∧ (NoRow o ↔ NoRow o') :=
  ⟨fun vs => ⟨fun h => absurd h (a.ret vs), fun h => absurd h (b.ret vs)⟩, fun _ => b, fun _ => a⟩

theorem obs_same {x x' : Ctx} {o o' : Obs} {r r' : Res Conv (List Val)} (h : Delivers x o r) (h' : Delivers x' o' r')
    (hy : ∀ vs, Ssp.Yields x.cfg r vs ↔ Ssp.Yields x'.cfg r' vs) :
    (∀ vs, o.ret = .row (some vs) ↔ o'.ret = .row (some vs)) ∧ (NoRow o ↔ NoRow o') := by
  have hv : ∀ vs, o.ret = .row (some vs) ↔ o'.ret = .row (some vs) := fun vs => by rw [h.1 vs, h'.1 vs, hy]
  have hnd : ∀ {x : Ctx} {o : Obs} {r : Res Conv (List Val)}, Delivers x o r → (∀ vs, o.ret ≠ .row (some vs)) → NoRow o := by
    intro x o r hd hn
    rcases hd.2 with ⟨vs, h⟩ | h
    · exact absurd ((hd.1 vs).mpr h) (hn vs)
    · exact h
  refine ⟨hv, fun g => hnd h' fun vs => ?_, fun g => hnd h fun vs => ?_⟩
  · rw [Ne, ← hv vs]; exact g.ret vs
  · rw [Ne, hv vs]; exact g.ret vs

/-- C39, with multiline: two parsers with the same setup and delimiter and the same column selection, each at a complete row with the same
text, deliver the same - whatever their inputs are otherwise, in how many lines they are, and whatever happened to either of
them before. -/
theorem C39_row_alone_multiline {x x' : Ctx} (hx : x.MlOk) (hx' : x'.MlOk) (hc : x'.cfg = x.cfg) (hd : x'.delim = x.delim)
    {s s' : Parser} (h : Parser.ReachT x s) (h' : Parser.ReachT x' s') {rs : List Req} (hrs : rs ≠ []) {k k' : Nat}
    (hr : x.RowTo s.line k) (hr' : x'.RowTo s'.line k') (ht : x'.joined s'.line k' = x.joined s.line k)
    (hsel : ∀ l, s'.converter l = s.converter l) :
    (∀ vs, Parser.Yields x (Parser.getNext x rs s) vs ↔ Parser.Yields x' (Parser.getNext x' rs s') vs) ∧
    ((∃ m, Parser.Fails x (Parser.getNext x rs s) m) ↔ ∃ m, Parser.Fails x' (Parser.getNext x' rs s') m) := by
  have h1 := C37_row hx h hrs hr
  have h2 := C37_row hx' h' hrs hr'
  rw [ht, fresh_congr hc hd (hsel _), hc] at h2
  exact ⟨fun vs => (h1.1 vs).trans (h2.1 vs).symm, h1.2.trans h2.2.symm⟩

/-- C39, with multiline: from wherever two parsers are, replacing one of the rows that are left - by a bad row, by one with too many
lines, by one with another number of lines - changes nothing about the rows in front of it and behind it: they are delivered
with the same values or refused, and `eof()` is told at the same call. -/
theorem C39_other_rows_multiline {x x' : Ctx} (hx : x.MlOk) (hx' : x'.MlOk) (hc : x'.cfg = x.cfg) (hd : x'.delim = x.delim)
    {s s' : Parser} (h : Parser.ReachT x s) (h' : Parser.ReachT x' s') {p q : List MlRow} {b g : MlRow}
    (hr : x.MlRows s.line (p ++ b :: q)) (hr' : x'.MlRows s'.line (p ++ g :: q)) (hsel : ∀ l, s'.converter l = s.converter l)
    {reqs : List (List Req)} (hne : ∀ rs ∈ reqs, rs ≠ []) :
    ∃ os os' s1 s1', Parser.run x (reqs.map .getNext) s = some (os, s1) ∧ Parser.run x' (reqs.map .getNext) s' = some (os', s1') ∧
      ∀ k, k ≠ p.length → k < reqs.length → ∃ o o', os[k]? = some o ∧ os'[k]? = some o' ∧ o.eof = o'.eof ∧
        (∀ vs, o.ret = .row (some vs) ↔ o'.ret = .row (some vs)) ∧ (NoRow o ↔ NoRow o') := by
  obtain ⟨os, s1, h1, h2⟩ := C37_sequence hx reqs h hr hne
  obtain ⟨os', s1', h1', h2'⟩ := C37_sequence hx' reqs h' hr' hne
  refine ⟨os, os', s1, s1', h1, h1', ?_⟩
  intro k hk hlt
  obtain ⟨o, e1, e2, e3⟩ := h2 k reqs[k] (List.getElem?_eq_getElem hlt)
  obtain ⟨o', e1', e2', e3'⟩ := h2' k reqs[k] (List.getElem?_eq_getElem hlt)
  have hl : (p ++ g :: q).length = (p ++ b :: q).length := by simp
  have hk' : (p ++ g :: q)[k]? = (p ++ b :: q)[k]? := by
    by_cases h : k < p.length
    · rw [List.getElem?_append_left h, List.getElem?_append_left h]
    · rw [List.getElem?_append_right (by omega), List.getElem?_append_right (by omega)]
      obtain ⟨j, hj⟩ : ∃ j, k - p.length = j + 1 := ⟨k - p.length - 1, by omega⟩
      rw [hj]; rfl
  rw [hk'] at e3'
  refine ⟨o, o', e1, e1', by rw [e2, e2', hl], ?_⟩
  generalize (p ++ b :: q)[k]? = row at e3 e3'
  match row, e3, e3' with
  | none, e3, e3' => exact obs_same_no e3 e3'
  | some .tooLong, e3, e3' => exact obs_same_no e3 e3'
  | some .unfinished, e3, e3' => exact obs_same_no e3 e3'
  | some (.text l), e3, e3' =>
    simp only at e3 e3'
    rw [fresh_congr hc hd (hsel l)] at e3'
    exact obs_same e3 e3' (fun vs => by rw [hc])

open Demo in
/-- the hypotheses are met: the second row of two lines of `Demo.twoRows` is replaced by a row with too few columns -/
example : (∃ p b q, (ctx cm "a,1\n\"b\nc\",2\n").MlRows 0 (p ++ b :: q) ∧ p.length = 1) ∧
    (ctx cm "a,1\nx").MlRows 0 ([.text (bs "a,1")] ++ .text (bs "x") :: []) ∧ (ctx cm "a,1\nx").MlOk := by
  refine ⟨⟨[.text (bs "a,1")], _, [], twoRows, rfl⟩, ?_, cm_ok (by decide +kernel)⟩
  have hj0 : (ctx cm "a,1\nx").joined 0 0 = bs "a,1" := by decide +kernel
  have hj1 : (ctx cm "a,1\nx").joined 1 0 = bs "x" := by decide +kernel
  have hl : (lines (ctx cm "a,1\nx").src.data).length = 2 := by decide +kernel
  have hst : ∀ {n : Nat} {l : Bytes}, (lines (ctx cm "a,1\nx").src.data)[n]? = some l →
      (ctx cm "a,1\nx").Starts n n := fun h => ⟨Nat.le_refl _, ⟨_, h, by intro h; cases h⟩, by intro i h1 h2; omega⟩
  have hend : ∀ {t : Bytes}, (Spec.decodeRow cm (bs ",") (cutNul t)).2 = .eol → ¬ cm.Escaped t → ¬ (ctx cm "a,1\nx").GoesOn t := by
    rintro t h1 h2 (h | ⟨a, h⟩)
    · exact h2 h
    · have : (Spec.decodeRow cm (bs ",") (cutNul t)).2 = .openQuote a := h
      rw [h1] at this; cases this
  have r0 : (ctx cm "a,1\nx").RowTo 0 0 := by
    refine ⟨by rw [hl]; omega, ?_, by intro i hi; omega⟩
    rw [hj0]; exact hend (by decide +kernel) (by unfold Cfg.Escaped; decide +kernel)
  have r1 : (ctx cm "a,1\nx").RowTo 1 0 := by
    refine ⟨by rw [hl]; omega, ?_, by intro i hi; omega⟩
    rw [hj1]; exact hend (by decide +kernel) (by unfold Cfg.Escaped; decide +kernel)
  have h2 : (ctx cm "a,1\nx").MlRows 2 [] := .done fun m hm => by
    obtain ⟨l, h, _⟩ := hm.row
    have := (List.getElem?_eq_some_iff.mp h).1
    have := hm.le
    omega
  have h1 := Ctx.MlRows.text (hst (n := 1) (l := bs "x") (by decide +kernel)) r1 h2
  have h0 := Ctx.MlRows.text (hst (n := 0) (l := bs "a,1") (by decide +kernel)) r0 h1
  rw [hj0, hj1] at h0
  exact h0

/-! ## Rows of one line -/

/-- With multiline, if no line of the input goes on in the next one, the rows are the lines. -/
theorem mlRows_lines {x : Ctx} (h : ∀ l ∈ lines x.src.data, ¬ x.GoesOn l) (n : Nat) : x.MlRows n ((x.rest n).map .text) := by
  have key : ∀ k n, (lines x.src.data).length - n < k → x.MlRows n ((x.rest n).map .text) := by
    intro k
    induction k with
    | zero => intro n h; omega
    | succ k ih =>
      intro n hk
      by_cases hr : x.rest n = []
      · rw [hr]; exact .done (not_starts hr)
      · obtain ⟨m, hm⟩ := starts_of_rest hr
        obtain ⟨l, h1, h2⟩ := rest_starts hm
        have hin := hm.inside
        have hle := hm.le
        have hin' : m < (rawLines x.src.data).length := by simpa [lines] using hin
        have hj : x.joined m 0 = l := by
          rw [joined_zero hin']
          rw [List.getElem?_eq_getElem hin] at h1
          simpa [lines] using h1
        rw [h2, List.map_cons, ← hj]
        refine .text hm ⟨by omega, ?_, by intro i hi; omega⟩ (ih (m + 1) (by omega))
        rw [hj]
        exact h l (List.mem_of_getElem? h1)
  exact key _ n (Nat.lt_succ_self _)

/-- what is left to a new parser when every line is a row -/
theorem created_mlRows {x : Ctx} (hx : x.MlOk) {s : Parser} (h : Parser.Created x s) (ho : ∀ l ∈ lines x.src.data, ¬ x.GoesOn l) :
    x.MlRows s.line (x.rows.map .text) ∧ ∀ l, s.converter l = { spl := { mem := l ++ [NUL] } } := by
  obtain ⟨h1, _, h2, _⟩ := created_rest hx.live.good h
  refine ⟨?_, h2⟩
  rw [← h1]
  exact mlRows_lines ho _

theorem same_rows {x x' : Ctx} (hx : x.MlOk) (hx' : x'.MlOk) (hc : x'.cfg = x.cfg) (hd : x'.delim = x.delim) {s s' : Parser}
    (h : Parser.ReachT x s) (h' : Parser.ReachT x' s') {L : List MlRow} (hr : x.MlRows s.line L) (hr' : x'.MlRows s'.line L)
    (hsel : ∀ l, s'.converter l = s.converter l) {reqs : List (List Req)} (hne : ∀ rs ∈ reqs, rs ≠ []) :
    ∃ os os' s1 s1', Parser.run x (reqs.map .getNext) s = some (os, s1) ∧ Parser.run x' (reqs.map .getNext) s' = some (os', s1') ∧
      ∀ k, k < reqs.length → ∃ o o', os[k]? = some o ∧ os'[k]? = some o' ∧ o.eof = o'.eof ∧
        (∀ vs, o.ret = .row (some vs) ↔ o'.ret = .row (some vs)) ∧ (NoRow o ↔ NoRow o') := by
  obtain ⟨os, s1, h1, h2⟩ := C37_sequence hx reqs h hr hne
  obtain ⟨os', s1', h1', h2'⟩ := C37_sequence hx' reqs h' hr' hne
  refine ⟨os, os', s1, s1', h1, h1', ?_⟩
  intro k hlt
  obtain ⟨o, e1, e2, e3⟩ := h2 k reqs[k] (List.getElem?_eq_getElem hlt)
  obtain ⟨o', e1', e2', e3'⟩ := h2' k reqs[k] (List.getElem?_eq_getElem hlt)
  refine ⟨o, o', e1, e1', by rw [e2, e2'], ?_⟩
  generalize L[k]? = row at e3 e3'
  match row, e3, e3' with
  | none, e3, e3' => exact obs_same_no e3 e3'
  | some .tooLong, e3, e3' => exact obs_same_no e3 e3'
  | some .unfinished, e3, e3' => exact obs_same_no e3 e3'
  | some (.text l), e3, e3' =>
    simp only at e3 e3'
    rw [fresh_congr hc hd (hsel l)] at e3'
    exact obs_same e3 e3' (fun vs => by rw [hc])

/-- C26, with multiline: inputs with the same lines, none of which goes on in the next one, are delivered alike, however the lines are
terminated.  (The terminators inside a row of several lines are part of its fields.) -/
theorem C26_same_lines_multiline {x y : Ctx} (hc : Alike x y) (hx : x.MlOk) (hy : y.MlOk) (hl : lines x.src.data = lines y.src.data)
    (ho : ∀ l ∈ lines x.src.data, ¬ x.GoesOn l) {s s' : Parser} (h : Parser.Created x s) (h' : Parser.Created y s')
    {reqs : List (List Req)} (hne : ∀ rs ∈ reqs, rs ≠ []) :
    ∃ os os' s1 s1', Parser.run x (reqs.map .getNext) s = some (os, s1) ∧ Parser.run y (reqs.map .getNext) s' = some (os', s1') ∧
      ∀ k, k < reqs.length → ∃ o o', os[k]? = some o ∧ os'[k]? = some o' ∧ o.eof = o'.eof ∧
        (∀ vs, o.ret = .row (some vs) ↔ o'.ret = .row (some vs)) ∧ (NoRow o ↔ NoRow o') := by
  have ho' : ∀ l ∈ lines y.src.data, ¬ y.GoesOn l := by
    rw [← hl]
    intro l hm hg
    refine ho l hm ?_
    unfold Ctx.GoesOn at hg ⊢
    rw [hc.cfg, hc.delim] at hg
    exact hg
  obtain ⟨m1, c1⟩ := created_mlRows hx h ho
  obtain ⟨m2, c2⟩ := created_mlRows hy h' ho'
  have hrows : y.rows = x.rows := by unfold Ctx.rows Ctx.rest; rw [hc.cfg, hl]
  rw [hrows] at m2
  exact same_rows hx hy hc.cfg hc.delim h.reachT h'.reachT m1 m2 (fun l => by rw [c1, c2]) hne

/-- A line that is a row for itself with multiline: it does not end with an active escape and - up to its first NUL - leaves no quote and
no escape open (it may be bad, though: text behind a closing quote). -/
def Ctx.OneLine (x : Ctx) (l : Bytes) : Prop :=
  ¬ x.cfg.Escaped l ∧ ((Spec.decodeRow x.cfg x.delim (cutNul l)).2 = .eol ∨ ∃ p q, (Spec.decodeRow x.cfg x.delim (cutNul l)).2 = .mismatch p q)

/-- the same parser without multiline -/
def Ctx.noMultiline (x : Ctx) : Ctx := { x with cfg := x.cfg.noMultiline }

theorem Ctx.OneLine.not_goesOn {x : Ctx} {l : Bytes} (h : x.OneLine l) : ¬ x.GoesOn l := by
  rintro (h1 | ⟨a, h1⟩)
  · exact h.1 h1
  · rcases h.2 with h2 | ⟨p, q, h2⟩ <;> rw [h2] at h1 <;> cases h1

theorem Ctx.OneLine.yields {x : Ctx} (hx : x.Ok) {l : Bytes} (h : x.OneLine l) (rs : List Req) (vs : List Val) :
    Ssp.Yields x.cfg (Conv.convertLine x.cfg rs x.delim { spl := { mem := l ++ [NUL] } }) vs ↔
    Ssp.Yields x.noMultiline.cfg (Conv.convertLine x.noMultiline.cfg rs x.noMultiline.delim { spl := { mem := l ++ [NUL] } }) vs := by
  obtain ⟨T, hT⟩ := cutNul_append_nul l []
  have hh : Holds ({ spl := { mem := l ++ [NUL] } } : Conv).spl (cutNul l) T := ⟨hT, cutNul_nul _, rfl⟩
  have g1 : Given x.cfg x.delim (cutNul l) T { spl := { mem := l ++ [NUL] } } :=
    ⟨hx.wf, hx.delim, hx.delim0, hh, fun i hi => by cases hi⟩
  have g2 : Given x.noMultiline.cfg x.noMultiline.delim (cutNul l) T { spl := { mem := l ++ [NUL] } } :=
    ⟨noMultiline_wf hx.wf, hx.delim, hx.delim0, hh, g1.sel⟩
  have hdr : Spec.decodeRow x.noMultiline.cfg x.noMultiline.delim (cutNul l) = Spec.decodeRow x.cfg x.delim (cutNul l) :=
    decodeRow_congr (c := x.cfg) (c' := x.noMultiline.cfg) ⟨rfl, rfl, rfl, rfl⟩ hx.delim _
  have hcl : Closed x.cfg x.delim (cutNul l) := fun _ => by rcases h.2 with h2 | ⟨p, q, h2⟩ <;> rw [h2] <;> rfl
  have k1 := line_result g1 (rs := rs) hcl (fun _ => by cases x.cfg.mode <;> rfl)
  have k2 := line_result g2 (rs := rs) (fun h => by cases h) (fun _ => by cases x.noMultiline.cfg.mode <;> rfl)
  have hs : splitRes x.noMultiline.cfg x.noMultiline.delim (cutNul l) = splitRes x.cfg x.delim (cutNul l) ∨
      ∃ m m', splitRes x.noMultiline.cfg x.noMultiline.delim (cutNul l) = .error m ∧ splitRes x.cfg x.delim (cutNul l) = .error m' := by
    unfold splitRes
    by_cases hl : cutNul l = []
    · left; rw [if_pos hl, if_pos hl]
    · rw [if_neg hl, if_neg hl, hdr]
      rcases h.2 with h2 | ⟨p, q, h2⟩
      · left
        rw [h2, (endError_none_iff (n := 0)).mpr rfl, (endError_none_iff (n := 0)).mpr rfl]
      · right
        have hne : ∀ (c : Cfg) (len : Nat), endError c len (.mismatch p q) ≠ none := by
          intro c len he
          have := (endError_none_iff (n := 0)).mp he
          cases this
        rw [h2]
        cases e1 : endError x.noMultiline.cfg (cutNul l).length (.mismatch p q) with
        | none => exact absurd e1 (hne _ _)
        | some m =>
          cases e2 : endError x.cfg (cutNul l).length (.mismatch p q) with
          | none => exact absurd e2 (hne _ _)
          | some m' => exact ⟨m, m', rfl, rfl⟩
  unfold Conv.lineRes at k1 k2
  rcases hs with hs | ⟨m, m', hs, hs'⟩
  · rw [hs] at k2
    generalize splitRes x.cfg x.delim (cutNul l) = r at k1 k2
    cases r with
    | error m => exact ⟨fun h => absurd h (fails_not_yields k1), fun h => absurd h (fails_not_yields k2)⟩
    | ok cols =>
      dsimp only at k1 k2
      cases hr : rowResult rs [] 0 cols with
      | error m => rw [hr] at k1 k2; exact ⟨fun h => absurd h (fails_not_yields k1), fun h => absurd h (fails_not_yields k2)⟩
      | ok ws => rw [hr] at k1 k2; exact ⟨fun h => yields_unique k1 h ▸ k2, fun h => yields_unique k2 h ▸ k1⟩
  · rw [hs] at k2
    rw [hs'] at k1
    exact ⟨fun h => absurd h (fails_not_yields k1), fun h => absurd h (fails_not_yields k2)⟩

/-- C73: if every line of the input is a row for itself, `ss::multiline` (restricted or not) changes nothing: the same requests get the same
rows and the same refusals, and `eof()` is told at the same call. -/
theorem C73_multiline_changes_nothing {x : Ctx} (hx : x.MlOk) (ho : ∀ l ∈ lines x.src.data, x.OneLine l) {s s' : Parser}
    (h : Parser.Created x s) (h' : Parser.Created x.noMultiline s') {reqs : List (List Req)} (hne : ∀ rs ∈ reqs, rs ≠ []) :
    ∃ os os' s1 s1', Parser.run x (reqs.map .getNext) s = some (os, s1) ∧
      Parser.run x.noMultiline (reqs.map .getNext) s' = some (os', s1') ∧
      ∀ k, k < reqs.length → ∃ o o', os[k]? = some o ∧ os'[k]? = some o' ∧ o.eof = o'.eof ∧
        (∀ vs, o.ret = .row (some vs) ↔ o'.ret = .row (some vs)) ∧ (NoRow o ↔ NoRow o') := by
  obtain ⟨m1, c1⟩ := created_mlRows hx h fun l hl => (ho l hl).not_goesOn
  have hx' : x.noMultiline.Ok := ⟨noMultiline_wf hx.ok.wf, hx.ok.delim, hx.ok.delim0, hx.ok.fine⟩
  obtain ⟨os, s1, h1, h2⟩ := C37_sequence hx reqs h.reachT m1 hne
  obtain ⟨os', s1', h1', h2'⟩ := C25_sequence hx' rfl h' hne
  refine ⟨os, os', s1, s1', h1, h1', ?_⟩
  intro k hlt
  obtain ⟨o, e1, e2, e3⟩ := h2 k reqs[k] (List.getElem?_eq_getElem hlt)
  obtain ⟨o', e1', e2', e3'⟩ := h2' k reqs[k] (List.getElem?_eq_getElem hlt)
  have hrows : x.noMultiline.rows = x.rows := rfl
  rw [hrows] at e2' e3'
  refine ⟨o, o', e1, e1', by rw [e2, e2', List.length_map], ?_⟩
  rw [List.getElem?_map] at e3
  cases hrow : x.rows[k]? with
  | none => rw [hrow] at e3 e3'; exact obs_same_no e3 e3'
  | some l =>
    rw [hrow] at e3 e3'
    simp only [Option.map_some] at e3 e3'
    have hmem : l ∈ lines x.src.data := by
      have h1 := List.mem_of_getElem? hrow
      exact List.mem_of_mem_drop (List.mem_filter.mp (List.mem_of_mem_drop h1)).1
    unfold Parser.fresh at e3
    rw [c1] at e3
    exact obs_same e3 e3' fun vs => (ho l hmem).yields hx.ok _ vs

open Demo in
/-- the hypotheses are met: quoted fields, escapes and a bad row -/
example : (ctx cm "a,\"b\"\n\"c\"x\nd\\,e").MlOk ∧ ∀ l ∈ lines (ctx cm "a,\"b\"\n\"c\"x\nd\\,e").src.data,
    (ctx cm "a,\"b\"\n\"c\"x\nd\\,e").OneLine l := by
  refine ⟨cm_ok (by decide +kernel), ?_⟩
  have hl : lines (ctx cm "a,\"b\"\n\"c\"x\nd\\,e").src.data = [bs "a,\"b\"", bs "\"c\"x", bs "d\\,e"] := by decide +kernel
  rw [hl]
  intro l hm
  simp only [List.mem_cons, List.not_mem_nil, or_false] at hm
  unfold Ctx.OneLine
  rcases hm with rfl | rfl | rfl
  · exact ⟨by unfold Cfg.Escaped; decide +kernel, .inl (by decide +kernel)⟩
  · exact ⟨by unfold Cfg.Escaped; decide +kernel, .inr ⟨2, false, by decide +kernel⟩⟩
  · exact ⟨by unfold Cfg.Escaped; decide +kernel, .inl (by decide +kernel)⟩

end Ssp
