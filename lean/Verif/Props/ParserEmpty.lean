import Verif.Props.ParserMultiline
/-!
# Empty lines and rows of several lines (C32 with multiline)

With multiline an empty line inside a row is part of the row; `ignore_empty` drops the empty lines between rows.
-/
namespace Ssp
open Spec

/-- `x.Kept n ls`: `ls` are the lines (with their terminators) of the rows from line `n` on, that is all lines but the
empty ones between the rows. -/
inductive Ctx.Kept (x : Ctx) : Nat → List Bytes → Prop
  | done {n} : (∀ m, ¬ x.Starts n m) → x.Kept n []
  | row {n m k ls} : x.Starts n m → x.RowTo m k ∨ x.RowTooLong m k → x.Kept (m + k + 1) ls →
      x.Kept n (((rawLines x.src.data).drop m).take (k + 1) ++ ls)
  | unfinished {n m} : x.Starts n m → x.RowOpen m → x.Kept n ((rawLines x.src.data).drop m)

theorem RawList.sublist {ls ls' : List Bytes} (h : RawList ls) (hs : ls'.Sublist ls) : RawList ls' := by
  induction h generalizing ls' with
  | nil => cases hs; exact .nil
  | last h1 h2 =>
    cases hs with
    | cons _ h => cases h; exact .nil
    | cons_cons _ h => cases h; exact .last h1 h2
  | cons h1 h2 ih =>
    cases hs with
    | cons _ h => exact ih h
    | cons_cons _ h => exact .cons h1 (ih h)

variable {x x' : Ctx}

theorem Ctx.Kept.sublist {n : Nat} {ls : List Bytes} (h : x.Kept n ls) : ls.Sublist ((rawLines x.src.data).drop n) := by
  induction h with
  | done => exact List.nil_sublist _
  | @row n m k ls hs hr hk ih =>
    have e : (rawLines x.src.data).drop m =
        ((rawLines x.src.data).drop m).take (k + 1) ++ (rawLines x.src.data).drop (m + k + 1) := by
      conv => lhs; rw [← List.take_append_drop (k + 1) ((rawLines x.src.data).drop m)]
      rw [List.drop_drop]
      rfl
    have h1 : ((rawLines x.src.data).drop m).Sublist ((rawLines x.src.data).drop n) :=
      List.drop_sublist_drop_left _ hs.le
    refine List.Sublist.trans ?_ h1
    rw [e]
    conv => rhs; rw [← e]
    conv => rhs; rw [e]
    exact List.Sublist.append (by rw [← e]; exact List.Sublist.refl _) ih
  | unfinished hs _ => exact List.drop_sublist_drop_left _ hs.le

theorem Ctx.Kept.rawLines {ls : List Bytes} (h : x.Kept 0 ls) : Ssp.rawLines ls.flatten = ls :=
  ((rawLines_rawList _).sublist (by simpa using h.sublist)).flatten

/-- the two setups see the same rows in the same text -/
structure SameLines (x x' : Ctx) : Prop where
  cfg : x.cfg = { x'.cfg with ignoreEmpty := true }
  keeps : x'.cfg.ignoreEmpty = false
  delim : x'.delim = x.delim
  usable : x.delim ≠ []

theorem SameLines.decode (h : SameLines x x') (t : Bytes) : decodeRow x'.cfg x'.delim t = decodeRow x.cfg x.delim t := by
  rw [h.delim]
  exact decodeRow_congr (c := x.cfg) (c' := x'.cfg) (by rw [h.cfg]; exact ⟨rfl, rfl, rfl, rfl⟩) h.usable t

theorem SameLines.goesOn (h : SameLines x x') (t : Bytes) : x'.GoesOn t ↔ x.GoesOn t := by
  unfold Ctx.GoesOn Cfg.InQuote Cfg.Escaped
  rw [h.decode, show x.cfg.escape = x'.cfg.escape by rw [h.cfg]]

theorem SameLines.limit (h : SameLines x x') (k : Nat) : x'.cfg.Limit k ↔ x.cfg.Limit k := by
  unfold Cfg.Limit
  rw [show x.cfg.mlLimit = x'.cfg.mlLimit by rw [h.cfg]]

theorem lines_length (d : Bytes) : (lines d).length = (rawLines d).length := by simp [lines]

theorem joined_same {pre ls post : List Bytes} {m k i : Nat} (h' : rawLines x'.src.data = pre ++ (ls ++ post))
    (h : ls = ((rawLines x.src.data).drop m).take (k + 1)) (hin : m + k < (rawLines x.src.data).length) (hi : i ≤ k) :
    x'.joined pre.length i = x.joined m i := by
  unfold Ctx.joined
  rw [h', List.drop_left]
  have hl : ls.length = k + 1 := by rw [h]; simp; omega
  rw [List.take_append_of_le_length (by omega), h, List.take_take, Nat.min_eq_left (by omega)]

theorem SameLines.rows (hs : SameLines x x') {n : Nat} {L : List MlRow} (hL : x.MlRows n L) :
    ∀ {pre ls : List Bytes}, x.Kept n ls → rawLines x'.src.data = pre ++ ls → x'.MlRows pre.length L := by
  have starts : ∀ {pre ls : List Bytes}, rawLines x'.src.data = pre ++ ls → ls ≠ [] → x'.Starts pre.length pre.length := by
    intro pre ls h' hne
    refine ⟨Nat.le_refl _, ?_, fun i h1 h2 => by omega⟩
    cases ls with
    | nil => exact absurd rfl hne
    | cons l ls =>
      refine ⟨chop l, ?_, fun h => by rw [hs.keeps] at h; cases h⟩
      rw [lines, h']
      simp
  induction hL with
  | done hno =>
    intro pre ls hk h'
    cases hk with
    | done _ =>
      refine .done fun m hm => ?_
      have := hm.inside
      have h1 := hm.le
      rw [lines_length, h'] at this
      simp at this; omega
    | row h1 _ _ => exact absurd h1 (hno _)
    | unfinished h1 _ => exact absurd h1 (hno _)
  | @text n m k L hst hr hL ih =>
    intro pre ls hk h'
    cases hk with
    | done h => exact absurd hst (h _)
    | unfinished h1 h2 => cases hst.unique h1; exact absurd h2 hr.not_open
    | @row _ m' k' ls h1 h2 h3 =>
      cases hst.unique h1
      have hkk : k = k' := by
        rcases h2 with h2 | h2
        · exact hr.unique h2
        · exact absurd h2 hr.not_tooLong
      subst hkk
      have hin : m + k < (rawLines x.src.data).length := by have := hr.inside; rwa [lines_length] at this
      have hj : ∀ i, i ≤ k → x'.joined pre.length i = x.joined m i := fun i hi => joined_same h' rfl hin hi
      have hlen : (((rawLines x.src.data).drop m).take (k + 1)).length = k + 1 := by simp; omega
      rw [← hj k (Nat.le_refl _)]
      refine .text (starts h' ?_) ⟨?_, ?_, fun i hi => ?_⟩ ?_
      · intro he
        have := congrArg List.length he
        simp only [List.length_append, hlen, List.length_nil] at this
        omega
      · rw [lines_length, h']; simp only [List.length_append, hlen]; omega
      · rw [hj k (Nat.le_refl _), hs.goesOn]; exact hr.stops
      · rw [hj i (by omega), hs.goesOn, hs.limit]; exact hr.before i hi
      · have := ih h3 (pre := pre ++ ((rawLines x.src.data).drop m).take (k + 1)) (by rw [h']; simp)
        simpa only [List.length_append, hlen, ← Nat.add_assoc] using this
  | @tooLong n m k L hst hr hL ih =>
    intro pre ls hk h'
    cases hk with
    | done h => exact absurd hst (h _)
    | unfinished h1 h2 => cases hst.unique h1; exact absurd h2 hr.not_open
    | @row _ m' k' ls h1 h2 h3 =>
      cases hst.unique h1
      have hkk : k = k' := by
        rcases h2 with h2 | h2
        · exact absurd hr h2.not_tooLong
        · exact hr.unique h2
      subst hkk
      have hin : m + k < (rawLines x.src.data).length := by have := hr.inside; rwa [lines_length] at this
      have hj : ∀ i, i ≤ k → x'.joined pre.length i = x.joined m i := fun i hi => joined_same h' rfl hin hi
      have hlen : (((rawLines x.src.data).drop m).take (k + 1)).length = k + 1 := by simp; omega
      refine .tooLong (starts h' ?_) (k := k) ⟨?_, ?_, (hs.limit k).mpr hr.limit, fun i hi => ?_⟩ ?_
      · intro he
        have := congrArg List.length he
        simp only [List.length_append, hlen, List.length_nil] at this
        omega
      · rw [lines_length, h']; simp only [List.length_append, hlen]; omega
      · rw [hj k (Nat.le_refl _), hs.goesOn]; exact hr.goesOn
      · rw [hj i (by omega), hs.goesOn, hs.limit]; exact hr.before i hi
      · have := ih h3 (pre := pre ++ ((rawLines x.src.data).drop m).take (k + 1)) (by rw [h']; simp)
        simpa only [List.length_append, hlen, ← Nat.add_assoc] using this
  | @unfinished n m hst hr =>
    intro pre ls hk h'
    cases hk with
    | done h => exact absurd hst (h _)
    | row h1 h2 h3 =>
      cases hst.unique h1
      rcases h2 with h2 | h2
      · exact absurd hr h2.not_open
      · exact absurd hr h2.not_open
    | unfinished h1 h2 =>
      cases hst.unique h1
      have hin := hst.inside
      rw [lines_length] at hin
      refine .unfinished (starts h' ?_) fun k hk => ?_
      · intro he
        have := congrArg List.length he
        simp at this; omega
      · rw [lines_length, h'] at hk
        simp at hk
        have : x'.joined pre.length k = x.joined m k := by
          unfold Ctx.joined
          rw [h', List.drop_left]
        rw [this, hs.goesOn, hs.limit]
        exact hr k (by rw [lines_length]; omega)

theorem kept_unique {n : Nat} {ls ls' : List Bytes} (h : x.Kept n ls) (h' : x.Kept n ls') : ls = ls' := by
  induction h generalizing ls' with
  | done h =>
    cases h' with
    | done _ => rfl
    | row h1 _ _ => exact absurd h1 (h _)
    | unfinished h1 _ => exact absurd h1 (h _)
  | row h1 h2 _ ih =>
    cases h' with
    | done h => exact absurd h1 (h _)
    | row k1 k2 k3 =>
      cases h1.unique k1
      have : _ = _ := h2.elim (fun a => k2.elim (fun b => a.unique b) fun b => absurd b a.not_tooLong)
        (fun a => k2.elim (fun b => absurd a b.not_tooLong) fun b => a.unique b)
      subst this
      rw [ih k3]
    | unfinished k1 k2 =>
      cases h1.unique k1
      rcases h2 with h2 | h2
      · exact absurd k2 h2.not_open
      · exact absurd k2 h2.not_open
  | unfinished h1 h2 =>
    cases h' with
    | done h => exact absurd h1 (h _)
    | row k1 k2 k3 =>
      cases h1.unique k1
      rcases k2 with k2 | k2
      · exact absurd h2 k2.not_open
      · exact absurd h2 k2.not_open
    | unfinished k1 k2 => cases h1.unique k1; rfl

theorem kept_exists (x : Ctx) (n : Nat) : ∃ ls, x.Kept n ls := by
  obtain ⟨L, hL⟩ := mlRows_exist x n
  induction hL with
  | done h => exact ⟨_, .done h⟩
  | text h1 h2 _ ih => obtain ⟨ls, h⟩ := ih; exact ⟨_, .row h1 (.inl h2) h⟩
  | tooLong h1 h2 _ ih => obtain ⟨ls, h⟩ := ih; exact ⟨_, .row h1 (.inr h2) h⟩
  | unfinished h1 h2 => exact ⟨_, .unfinished h1 h2⟩

/-- a newly made converter does not care about `ignore_empty` -/
theorem SameLines.yields (hs : SameLines x x') (hx : x.MlOk) (hx' : x'.MlOk) {s s' : Parser} (h : Parser.ReachT x s)
    (h' : Parser.ReachT x' s') (rs : List Req) {l : Bytes} (hcv : s.converter l = s'.converter l)
    (hc : ¬ x.GoesOn l) (vs : List Val) :
    Ssp.Yields x.cfg (s.fresh x rs l) vs ↔ Ssp.Yields x'.cfg (s'.fresh x' rs l) vs := by
  have hopen : (decodeRow x.cfg x.delim (cutNul l)).2.isOpenQuote = false := by
    cases hd : (decodeRow x.cfg x.delim (cutNul l)).2 with
    | openQuote a => exact absurd (.inr ⟨a, hd⟩) hc
    | _ => rfl
  obtain ⟨t, hp, _, _⟩ := h.sim hx.live
  obtain ⟨t', hp', _, _⟩ := h'.sim hx'.live
  have h1 := Parser.fresh_closed hx.ok hp rs hopen
  have h2 := Parser.fresh_closed hx'.ok hp' rs (by rw [hs.decode]; exact hopen)
  have hspl : splitRes x'.cfg x'.delim (cutNul l) = splitRes x.cfg x.delim (cutNul l) := by
    unfold splitRes
    rw [hs.decode, show endError x.cfg = endError x'.cfg by rw [hs.cfg]; rfl]
  have hsel : t'.rd.sel = t.rd.sel ∧ t'.rd.ncols = t.rd.ncols := by
    unfold Parser.converter at hcv
    rw [hp.base.cur.sel, hp.base.cur.ncols, hp'.base.cur.sel, hp'.base.cur.ncols] at hcv
    injection hcv with _ _ h3 h4
    exact ⟨h3.symm, h4.symm⟩
  rw [hspl, hsel.1, hsel.2] at h2
  generalize rowOf rs t.rd.sel t.rd.ncols (splitRes x.cfg x.delim (cutNul l)) = r at h1 h2
  cases r with
  | ok ws => exact ⟨fun h => yields_unique h1 h ▸ h2, fun h => yields_unique h2 h ▸ h1⟩
  | error m => exact ⟨fun h => absurd h (fails_not_yields h1), fun h => absurd h (fails_not_yields h2)⟩

/-- the texts of the rows are complete -/
theorem mlRows_texts {n : Nat} {L : List MlRow} (h : x.MlRows n L) {k : Nat} {t : Bytes} (ht : L[k]? = some (.text t)) :
    ¬ x.GoesOn t := by
  induction h generalizing k with
  | done _ => simp at ht
  | text h1 h2 _ ih =>
    cases k with
    | zero => simp at ht; subst ht; exact h2.stops
    | succ k => exact ih (by simpa using ht)
  | tooLong h1 h2 _ ih =>
    cases k with
    | zero => simp at ht
    | succ k => exact ih (by simpa using ht)
  | unfinished _ _ =>
    cases k with
    | zero => simp at ht
    | succ k => simp at ht

theorem noRow_row {o : Obs} (h : NoRow o) (vs : List Val) : o.ret ≠ .row (some vs) := by
  rcases h with h | ⟨_, h⟩
  · rw [h.1]; simp
  · rw [h]; simp

theorem SameLines.runs (hs : SameLines x x') (hx : x.MlOk) (hx' : x'.MlOk) {L : List MlRow} {n : Nat} {s s' : Parser} (h : Parser.Created x s)
    (h' : Parser.Created x' s') (hL0 : x.MlRows n L) (hL : x.MlRows s.line L) (hL' : x'.MlRows s'.line L) {reqs : List (List Req)}
    (hne : ∀ rs ∈ reqs, rs ≠ []) :
    ∃ os os' s1 s1', Parser.run x (reqs.map .getNext) s = some (os, s1) ∧ Parser.run x' (reqs.map .getNext) s' = some (os', s1') ∧
      ∀ k, k < reqs.length → ∃ o o', os[k]? = some o ∧ os'[k]? = some o' ∧ o.eof = o'.eof ∧
        (∀ vs, o.ret = .row (some vs) ↔ o'.ret = .row (some vs)) := by
  obtain ⟨os, s1, h1, h2⟩ := C37_sequence hx reqs h.reachT hL hne
  obtain ⟨os', s1', h1', h2'⟩ := C37_sequence hx' reqs h'.reachT hL' hne
  refine ⟨os, os', s1, s1', h1, h1', ?_⟩
  intro k hlt
  obtain ⟨o, e1, e2, e3⟩ := h2 k reqs[k] (List.getElem?_eq_getElem hlt)
  obtain ⟨o', e1', e2', e3'⟩ := h2' k reqs[k] (List.getElem?_eq_getElem hlt)
  refine ⟨o, o', e1, e1', by rw [e2, e2'], ?_⟩
  cases hrow : L[k]? with
  | none =>
    rw [hrow] at e3 e3'
    exact fun vs => ⟨fun h => absurd h (noRow_row e3 vs), fun h => absurd h (noRow_row e3' vs)⟩
  | some r =>
    rw [hrow] at e3 e3'
    cases r with
    | tooLong => exact fun vs => ⟨fun h => absurd h (noRow_row e3 vs), fun h => absurd h (noRow_row e3' vs)⟩
    | unfinished => exact fun vs => ⟨fun h => absurd h (noRow_row e3 vs), fun h => absurd h (noRow_row e3' vs)⟩
    | text t =>
      intro vs
      have ht2 := mlRows_texts hL0 hrow
      rw [e3.1 vs, e3'.1 vs]
      exact hs.yields hx hx' h.reachT h'.reachT _ (by rw [(created_rest hx.live.good h).2.2.1, (created_rest hx'.live.good h').2.2.1]) ht2 vs

/-- C32, with multiline: a parser with `ignore_empty` and a parser without it on the same data without the empty lines
between the rows (`ls`, see `Ctx.Kept`; there is always exactly one such list, `C32_kept_exists`) deliver the same for
every sequence of `get_next`, and reach the end of the file at the same call. -/
theorem C32_ignore_empty_multiline (hx : x.MlOk) (hx' : x'.MlOk) (hih : x.cfg.ignoreHeader = false)
    (hc : x.cfg = { x'.cfg with ignoreEmpty := true }) (hie : x'.cfg.ignoreEmpty = false) (hd : x'.delim = x.delim)
    {ls : List Bytes} (hls : x.Kept 0 ls) (hdata : x'.src.data = ls.flatten) {s s' : Parser} (h : Parser.Created x s)
    (h' : Parser.Created x' s') {reqs : List (List Req)} (hne : ∀ rs ∈ reqs, rs ≠ []) :
    ∃ os os' s1 s1', Parser.run x (reqs.map .getNext) s = some (os, s1) ∧ Parser.run x' (reqs.map .getNext) s' = some (os', s1') ∧
      ∀ k, k < reqs.length → ∃ o o', os[k]? = some o ∧ os'[k]? = some o' ∧ o.eof = o'.eof ∧
        (∀ vs, o.ret = .row (some vs) ↔ o'.ret = .row (some vs)) := by
  have hs : SameLines x x' := ⟨hc, hie, hd, hx.ok.delim⟩
  obtain ⟨L, hL⟩ := mlRows_exist x 0
  have hL' : x'.MlRows 0 L := hs.rows hL (pre := []) hls (by rw [hdata]; exact hls.rawLines)
  have hih' : x'.cfg.ignoreHeader = false := by rw [hc] at hih; exact hih
  exact hs.runs hx hx' h h' hL (((C37_new_parser hx h).1 hih).mpr hL) (((C37_new_parser hx' h').1 hih').mpr hL') hne

/-- C32, with multiline and `ignore_header`: the first line that is not empty (line `m`) is the header; a parser without
`ignore_empty` on that line and the lines of the rows behind it delivers the same. -/
theorem C32_ignore_empty_ignore_header (hx : x.MlOk) (hx' : x'.MlOk) (hih : x.cfg.ignoreHeader = true)
    (hc : x.cfg = { x'.cfg with ignoreEmpty := true }) (hie : x'.cfg.ignoreEmpty = false) (hd : x'.delim = x.delim)
    {m : Nat} {hl : Bytes} (hm : x.Starts 0 m) (hhl : (rawLines x.src.data)[m]? = some hl)
    {ls : List Bytes} (hls : x.Kept (m + 1) ls) (hdata : x'.src.data = (hl :: ls).flatten) {s s' : Parser} (h : Parser.Created x s)
    (h' : Parser.Created x' s') {reqs : List (List Req)} (hne : ∀ rs ∈ reqs, rs ≠ []) :
    ∃ os os' s1 s1', Parser.run x (reqs.map .getNext) s = some (os, s1) ∧ Parser.run x' (reqs.map .getNext) s' = some (os', s1') ∧
      ∀ k, k < reqs.length → ∃ o o', os[k]? = some o ∧ os'[k]? = some o' ∧ o.eof = o'.eof ∧
        (∀ vs, o.ret = .row (some vs) ↔ o'.ret = .row (some vs)) := by
  have hs : SameLines x x' := ⟨hc, hie, hd, hx.ok.delim⟩
  have hsub : (hl :: ls).Sublist (rawLines x.src.data) := by
    have h1 : (hl :: ls).Sublist ((rawLines x.src.data).drop m) := by
      obtain ⟨hlt, rfl⟩ := List.getElem?_eq_some_iff.mp hhl
      rw [List.drop_eq_getElem_cons hlt]
      exact hls.sublist.cons_cons _
    exact h1.trans (List.drop_sublist _ _)
  have hraw : rawLines x'.src.data = [hl] ++ ls := by
    rw [hdata]; exact ((rawLines_rawList _).sublist hsub).flatten
  obtain ⟨L, hL⟩ := mlRows_exist x (m + 1)
  have hL' : x'.MlRows 1 L := hs.rows hL (pre := [hl]) hls hraw
  have hih' : x'.cfg.ignoreHeader = true := by rw [hc] at hih; exact hih
  have hm' : x'.Starts 0 0 := by
    refine ⟨Nat.le_refl _, ⟨chop hl, ?_, fun h0 => by rw [hie] at h0; cases h0⟩, by intro i _ h2; omega⟩
    unfold lines; rw [hraw]; rfl
  exact hs.runs hx hx' h h' hL (((C37_new_parser hx h).2 hih m hm).mpr hL) (((C37_new_parser hx' h').2 hih' 0 hm').mpr hL') hne

/-- C32, with multiline: which empty lines are between the rows is determined by the input. -/
theorem C32_kept_exists (x : Ctx) : ∃ ls, x.Kept 0 ls ∧ (∀ ls', x.Kept 0 ls' → ls' = ls) ∧ ls.Sublist (rawLines x.src.data) := by
  obtain ⟨ls, h⟩ := kept_exists x 0
  refine ⟨ls, h, fun ls' h' => kept_unique h' h, by simpa using h.sublist⟩

open Demo in
/-- C32, with multiline: an empty line inside a row is kept, the ones around it are dropped. -/
theorem C32_empty_line_inside_row :
    (runs { cm with ignoreEmpty := true } "\n\"a\n\nb\",1\n\nc,2" [.getNext [str, num], .getNext [str, num]]).map (fun o => (o.ret, o.eof, o.line)) =
      [(.row (some [.str (bs "a\n\nb"), .int 1]), false, 5), (.row (some [.str (bs "c"), .int 2]), true, 6)] ∧
    (runs cm "\"a\n\nb\",1\nc,2" [.getNext [str, num], .getNext [str, num]]).map (fun o => (o.ret, o.eof)) =
      [(.row (some [.str (bs "a\n\nb"), .int 1]), false), (.row (some [.str (bs "c"), .int 2]), true)] := by
  exact ⟨by decide +kernel, by decide +kernel⟩

end Ssp
