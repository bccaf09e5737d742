import Verif.Props.ParserEof
import Verif.Proofs.ParserMlRows
/-!
# Rows of several lines (C37, C38)

The theorems are about every input, every setup with multiline that meets `Ctx.MlOk` and every history of calls with
`or_else` behind complete rows only (`Parser.ReachT`; see `C41`).  The specification is in `Verif.Spec.Parser`: `x.joined n k` is the
text of the lines `n` to `n + k`, `x.RowTo n k` says that they are a row: the shortest run of lines at the end of which no
quote and no escape is open.
-/
namespace Ssp
open Spec

variable {x : Ctx} {s : Parser} {rs : List Req} {k : Nat}

/-- a parser stands at a row iff there is a line -/
theorem rest_of_inside (hx : x.MlOk) (h : Parser.ReachT x s) (hl : s.line < (lines x.src.data).length) : x.rest s.line ≠ [] := by
  intro hr
  obtain ⟨t, hp, hi, _⟩ := h.sim hx.live
  rw [hp.line] at hl hr
  have hlen : (lines x.src.data).length = (rawLines x.src.data).length := by simp [lines]
  rw [Mach.line_eq] at hl
  rcases hi.rest_over hr with he | ⟨_, ho⟩
  · rcases (hi.over he).2 with ⟨_, h2, _⟩ | ho
    · rw [h2] at hl; simp [lines, rawLines] at hl
    · have := ho.ln; omega
  · have := ho.ln; omega

/-- C37: every line is the beginning of exactly one of: a row, a row with more lines than allowed, a row that is still open
at the end of the input; and the number of lines is determined. -/
theorem C37_exactly_one (x : Ctx) (n : Nat) :
    ((∃ k, x.RowTo n k) ∨ (∃ k, x.RowTooLong n k) ∨ x.RowOpen n) ∧
    (∀ k k', x.RowTo n k → x.RowTo n k' → k = k') ∧ (∀ k k', x.RowTooLong n k → x.RowTooLong n k' → k = k') ∧
    (∀ k k', x.RowTo n k → ¬ x.RowTooLong n k') ∧ (∀ k, x.RowTo n k → ¬ x.RowOpen n) ∧ (∀ k, x.RowTooLong n k → ¬ x.RowOpen n) :=
  ⟨x.row_cases n, fun _ _ h h' => h.unique h', fun _ _ h h' => h.unique h', fun _ _ h h' => h.not_tooLong h',
    fun _ h h' => h.not_open h', fun _ h h' => h.not_open h'⟩

/-- C37: `Cfg.InQuote`, by which rows are delimited, is what a newly made splitter says of the text by
`unterminated_quote()`, whatever the text. -/
theorem C37_in_quote_iff {c : Cfg} (hc : c.WF) (hml : c.multiline = true) {delim t : Bytes} (hd : delim ≠ []) (hd0 : NUL ∉ delim) :
    c.InQuote delim (cutNul t) ↔
      ∃ sp, Spl.split c delim { mem := t ++ [NUL] } = .ok () sp ∧ sp.unterminatedQuote = true := by
  obtain ⟨T, hT⟩ := cutNul_append_nul t []
  rcases split_known hc hd hd0 (⟨hT, cutNul_nul _, rfl⟩ : Holds { mem := t ++ [NUL] } (cutNul t) T) with ⟨sp, h1, h2, _⟩ | ⟨m, sp, h1, _, h2⟩
  · constructor
    · intro h
      exact ⟨sp, h1, h2.uq_iff.mpr h⟩
    · rintro ⟨sp', h3, h4⟩
      rw [h1] at h3; cases h3
      exact h2.uq_iff.mp h4
  · constructor
    · rintro ⟨a, ha⟩
      rw [ha, hml] at h2
      exact absurd rfl h2
    · rintro ⟨_, h3, _⟩
      rw [h1] at h3; cases h3

/-- C37: when the lines from `line()` on form a row of `k + 1` lines, `get_next` yields exactly the values a newly made
converter yields for the text of these lines, put together with their terminators; it reports an error iff that
converter yields none. -/
theorem C37_row (hx : x.MlOk) (h : Parser.ReachT x s) (hrs : rs ≠ []) (hk : x.RowTo s.line k) :
    (∀ vs, Parser.Yields x (Parser.getNext x rs s) vs ↔ Ssp.Yields x.cfg (s.fresh x rs (x.joined s.line k)) vs) ∧
    ((∃ m, Parser.Fails x (Parser.getNext x rs s) m) ↔ ∀ vs, ¬ Ssp.Yields x.cfg (s.fresh x rs (x.joined s.line k)) vs) := by
  obtain ⟨k', s', res, h1, _, _, _, _, _, _, h2⟩ :=
    multi_core hx h hrs (rest_of_inside hx h (by have := hk.inside; omega))
  rcases h2 with ⟨h2, h3, _⟩ | ⟨h2, _⟩ | ⟨h2, _⟩
  · cases hk.unique h2
    have hy : ∀ vs, Parser.Yields x (Parser.getNext x rs s) vs ↔ Ssp.Yields x.cfg (s.fresh x rs (x.joined s.line k)) vs :=
      fun vs => (h1.yields_iff vs).trans (h3 vs)
    refine ⟨hy, (Parser.fails_iff_not_yields h1).trans ?_⟩
    exact forall_congr' fun vs => not_congr (hy vs)
  · exact (hk.not_tooLong h2).elim
  · exact (hk.not_open h2).elim

/-- the text can be split -/
theorem accepts_end {c : Cfg} (hc : c.WF) {delim t : Bytes} (hd : delim ≠ []) (hd0 : NUL ∉ delim) {cols : List Bytes}
    (h : Accepts c (Spl.split c delim { mem := t ++ [NUL] }) cols) : (decodeRow c delim (cutNul t)).2.stringError c.multiline 0 = none := by
  obtain ⟨sp', h3, h4, _⟩ := h
  obtain ⟨T, hT⟩ := cutNul_append_nul t []
  rcases split_known hc hd hd0 (⟨hT, cutNul_nul _, rfl⟩ : Holds { mem := t ++ [NUL] } (cutNul t) T) with ⟨sp, h1, h2, _, _, _, _, h5⟩ | ⟨m, sp, h1, _, h2⟩
  · rw [h1] at h3; cases h3
    have := h2.2.2
    rw [h4] at this
    have hor : c.mode = .throw ∨ (decodeRow c delim (cutNul t)).2.stringError c.multiline 0 = none := by simpa using this.symm
    exact hor.elim h5 id
  · rw [h1] at h3; cases h3

/-- C37: the error of a row is the error of the newly made converter, preceded by the name of the file and the number of
the last line of the row - if the row is a single line, or if the error is not about splitting (the text of the row can
be split).  For the others see `C37_position_of_mismatched_quote`. -/
theorem C37_error_partial (hx : x.MlOk) (h : Parser.ReachT x s) (hrs : rs ≠ []) (hk : x.RowTo s.line k) {m : Bytes}
    (hf : Ssp.Fails x.cfg (s.fresh x rs (x.joined s.line k)) m) (hne : cutNul (x.joined s.line k) ≠ [] ∨ x.cfg.mode ≠ .string)
    (hsp : k = 0 ∨ ∃ cols, Accepts x.cfg (Spl.split x.cfg x.delim { mem := x.joined s.line k ++ [NUL] }) cols)
    (hie : x.cfg.ignoreEmpty = false ∨ x.cfg.mode ≠ .throw) :
    Parser.Fails x (Parser.getNext x rs s) (x.at (s.line + k + 1) m) := by
  obtain ⟨k', s', res, h1, _, _, _, hln, _, _, h2⟩ :=
    multi_core hx h hrs (rest_of_inside hx h (by have := hk.inside; omega))
  rcases h2 with ⟨h2, _, h3⟩ | ⟨h2, _⟩ | ⟨h2, _⟩
  · cases hk.unique h2
    have hsp' : k = 0 ∨ (decodeRow x.cfg x.delim (cutNul (x.joined s.line k))).2.stringError true 0 = none :=
      hsp.imp id fun ⟨cols, hc⟩ => by
        have := accepts_end hx.ok.wf hx.ok.delim hx.ok.delim0 hc
        rwa [hx.ml] at this
    obtain ⟨m', rfl, hm'⟩ := h3 m hf hne hsp'
    have := h1.fails
    cases hmode : x.cfg.mode with
    | bool =>
      unfold Parser.Fails at this ⊢
      rw [hmode] at this ⊢
      exact this
    | string => rw [hmode] at this; rw [hm' (by simp [hmode])] at this; simpa using this
    | throw =>
      rw [hmode] at this
      rw [hm' (by simp [hmode])] at this
      rw [← hln (hie.resolve_right (by simp [hmode]))]
      simpa using this
  · exact (hk.not_tooLong h2).elim
  · exact (hk.not_open h2).elim

/-- C37, C38: after a row of `k + 1` lines, and after a row that has more lines than allowed in its first `k + 1` lines,
the parser stands at the first row that starts in a later line than these; `eof()` holds iff there is none, and the column
selection is the same. -/
theorem C37_next_row (hx : x.MlOk) (h : Parser.ReachT x s) (hrs : rs ≠ []) (hk : x.RowTo s.line k ∨ x.RowTooLong s.line k) :
    ∃ o s', Parser.step x (.getNext rs) s = some (o, s') ∧
      (s'.eof = true ↔ ∀ m, ¬ x.Starts (s.line + k + 1) m) ∧ (s'.eof = false → x.Starts (s.line + k + 1) s'.line) ∧
      x.rest s'.line = x.rest (s.line + k + 1) ∧
      (x.cfg.ignoreEmpty = false → s'.line = s.line + k + 1) ∧ ∀ t, s'.converter t = s.converter t := by
  have hin : s.line < (lines x.src.data).length := by
    rcases hk with hk | hk <;> (have := hk.inside; omega)
  obtain ⟨k', s', res, h1, h3, h4, h5, h6, h7, _, h2⟩ := multi_core hx h hrs (rest_of_inside hx h hin)
  have hkk : k = k' := by
    rcases h2 with ⟨h2, _⟩ | ⟨h2, _⟩ | ⟨h2, _⟩ <;> rcases hk with hk | hk
    · exact hk.unique h2
    · exact (h2.not_tooLong hk).elim
    · exact (hk.not_tooLong h2).elim
    · exact hk.unique h2
    · exact (hk.not_open h2).elim
    · exact (hk.not_open h2).elim
  subst hkk
  have hiff : s'.eof = true ↔ ∀ m, ¬ x.Starts (s.line + k + 1) m := by
    rw [h4]
    constructor
    · intro he m hm
      obtain ⟨l, _, hl⟩ := rest_starts hm
      rw [hl] at he; cases he
    · intro hn
      cases hr : x.rest (s.line + k + 1) with
      | nil => rfl
      | cons l ls =>
        obtain ⟨m, hm⟩ := starts_of_rest (x := x) (n := s.line + k + 1) (by rw [hr]; simp)
        exact absurd hm (hn m)
  refine ⟨_, s', h1.step, hiff, ?_, h3, h6, h7⟩
  intro he
  have hne : x.rest s'.line ≠ [] := by
    rw [h3]; intro hc
    rw [h4, hc] at he; cases he
  exact starts_same h5 h3.symm (starts_here hx.live (h.step .getNext h1.step) hne)

/-- C37: a row that is still open at the end of the input is an error, and the parser is at the end of the file. -/
theorem C37_unfinished (hx : x.MlOk) (h : Parser.ReachT x s) (hrs : rs ≠ []) (hl : s.line < (lines x.src.data).length)
    (hk : x.RowOpen s.line) :
    (∀ vs, ¬ Parser.Yields x (Parser.getNext x rs s) vs) ∧
    (x.cfg.ignoreEmpty = false ∨ x.cfg.mode ≠ .throw →
      (x.cfg.Escaped (x.joined s.line ((lines x.src.data).length - 1 - s.line)) ∧
        Parser.Fails x (Parser.getNext x rs s) (x.at (lines x.src.data).length (bs "unterminated escape at the end of the line")) ∨
       ¬ x.cfg.Escaped (x.joined s.line ((lines x.src.data).length - 1 - s.line)) ∧
        Parser.Fails x (Parser.getNext x rs s) (x.at (lines x.src.data).length (bs "unterminated quote")))) ∧
    ∃ o s', Parser.step x (.getNext rs) s = some (o, s') ∧ NoRow o ∧ s'.eof = true ∧ x.rest s'.line = [] := by
  obtain ⟨k', s', res, h1, h3, h4, h5, h6, h7, _, h2⟩ := multi_core hx h hrs (rest_of_inside hx h hl)
  rcases h2 with ⟨h2, _⟩ | ⟨h2, _⟩ | ⟨_, h8, h9⟩
  · exact (h2.not_open hk).elim
  · exact (h2.not_open hk).elim
  · have e : (lines x.src.data).length - 1 - s.line = k' := by omega
    rw [e]
    have hres : ∃ m, res = .error m := by rcases h9 with ⟨_, h9⟩ | ⟨_, h9⟩ <;> exact ⟨_, h9⟩
    obtain ⟨m, rfl⟩ := hres
    have hrest : x.rest (s.line + k' + 1) = [] := rest_none (by omega)
    refine ⟨fun vs hy => ?_, fun hie => ?_, ?_⟩
    · have := (h1.yields_iff vs).mp hy
      cases this
    · have hf := h1.fails
      have hn : (if x.cfg.mode = .throw then s'.line else s.line + k' + 1) = (lines x.src.data).length := by
        split
        · rename_i hth
          rw [h6 (hie.resolve_right (by simp [hth]))]; omega
        · omega
      rw [hn] at hf
      rcases h9 with ⟨h9, h10⟩ | ⟨h9, h10⟩
      · cases h10; exact .inl ⟨h9, hf⟩
      · cases h10; exact .inr ⟨h9, hf⟩
    · refine ⟨_, s', h1.step, ?_, by rw [h4, hrest]; rfl, by rw [h3, hrest]⟩
      have := delivers_of h1 (r := .ub) (fun vs => ⟨(by intro h; cases h), (by rintro ⟨_, h, _⟩; cases h)⟩)
      rcases this.2 with ⟨_, _, h, _⟩ | h | h
      · cases h
      · exact .inl h
      · exact .inr h

/-- C37: whatever types are asked for and whatever errors are met, `get_next` goes through the rows `L` of the input from the
current line on, one per call: the text of a row is delivered as a newly made converter delivers it, a row with too many
lines and a row that is still open at the end of the input are errors, calls after the last row are errors, and `eof()`
holds from the last row on. -/
theorem C37_sequence (hx : x.MlOk) : ∀ (reqs : List (List Req)) {s : Parser} {L : List MlRow}, Parser.ReachT x s →
    x.MlRows s.line L → (∀ rs ∈ reqs, rs ≠ []) →
    ∃ os s', Parser.run x (reqs.map .getNext) s = some (os, s') ∧
      ∀ k rs, reqs[k]? = some rs → ∃ o, os[k]? = some o ∧ o.eof = decide (L.length ≤ k + 1) ∧
        match L[k]? with
        | some (.text t) => Delivers x o (s.fresh x rs t)
        | _ => NoRow o := by
  intro reqs
  induction reqs with
  | nil => intro s _ _ _ _; exact ⟨[], s, rfl, by intro k rs h; simp at h⟩
  | cons rs reqs ih =>
    intro s L h hL hne
    have hrs : rs ≠ [] := hne rs (by simp)
    by_cases hr : x.rest s.line = []
    · have hL0 : L = [] := mlRows_unique hL (.done (not_starts hr))
      subst hL0
      obtain ⟨s1, _, _, h3, h4, h5⟩ := over_coreM hx.ok hx.ml h hrs hr
      obtain ⟨o, h6, h7, h8⟩ := step_of_error h3
      obtain ⟨os, s', h9, h10⟩ := ih (L := []) (h.step .getNext h6) (.done (not_starts h5)) (fun rs h => hne rs (by simp [h]))
      refine ⟨o :: os, s', by simp [Parser.run, h6, h9], ?_⟩
      intro k rs' hk
      cases k with
      | zero => exact ⟨o, rfl, by rw [h7, h4]; simp, h8⟩
      | succ k =>
        obtain ⟨o', h11, h12, h13⟩ := h10 k rs' hk
        exact ⟨o', h11, by rw [h12]; simp, by simpa using h13⟩
    · have hst := starts_here hx.live h hr
      obtain ⟨k, s1, res, h1, h2, h3, h4, _, h5, _, h6⟩ := multi_core hx h hrs hr
      have hstep := h1.step
      have h1' := h.step .getNext hstep
      -- the rows after this one
      have hL' : ∃ r L', L = r :: L' ∧ x.MlRows s1.line L' ∧
          (match r with | .text t => Delivers x (Parser.observe x (retOf x s1 res) s1) (s.fresh x rs t)
                        | _ => NoRow (Parser.observe x (retOf x s1 res) s1)) := by
        have hno : ∀ {m}, res = .error m → NoRow (Parser.observe x (retOf x s1 res) s1) := by
          rintro m rfl
          have := delivers_of h1 (r := .ub) (fun vs => ⟨(by intro h; cases h), (by rintro ⟨_, h, _⟩; cases h)⟩)
          rcases this.2 with ⟨_, _, h, _⟩ | h | h
          · cases h
          · exact .inl h
          · exact .inr h
        obtain ⟨L', hL'⟩ := mlRows_exist x (s.line + k + 1)
        have hnext := mlRows_same h4 h2.symm hL'
        rcases h6 with ⟨e1, e2, _⟩ | ⟨e1, e2⟩ | ⟨e1, e2, e3⟩
        · exact ⟨_, L', mlRows_unique hL (.text hst e1 hL'), hnext, delivers_of h1 e2⟩
        · exact ⟨_, L', mlRows_unique hL (.tooLong hst e1 hL'), hnext, hno e2⟩
        · have hrest : x.rest (s.line + k + 1) = [] := rest_none (by omega)
          refine ⟨_, [], mlRows_unique hL (.unfinished hst e1), .done (not_starts (by rw [h2, hrest])), ?_⟩
          rcases e3 with ⟨_, e3⟩ | ⟨_, e3⟩ <;> exact hno e3
      obtain ⟨r, L', rfl, hn, hd⟩ := hL'
      obtain ⟨os, s', h9, h10⟩ := ih h1' hn (fun rs h => hne rs (by simp [h]))
      refine ⟨Parser.observe x (retOf x s1 res) s1 :: os, s', by simp [Parser.run, hstep, h9], ?_⟩
      intro i rs' hi
      cases i with
      | zero =>
        cases hi
        refine ⟨_, rfl, ?_, ?_⟩
        · show s1.eof = _
          rw [h3]
          cases hLe : L' with
          | nil =>
            subst hLe
            have : x.rest (s.line + k + 1) = [] := by
              rw [← h2]
              false_or_by_contra
              rename_i hc
              obtain ⟨m, hm⟩ := starts_of_rest hc
              cases hn with
              | done hn => exact hn m hm
            simp [this]
          | cons r' L'' =>
            subst hLe
            have : x.rest (s.line + k + 1) ≠ [] := by
              rw [← h2]
              intro hc
              cases hn with
              | text h1 => exact not_starts hc _ h1
              | tooLong h1 => exact not_starts hc _ h1
              | unfinished h1 => exact not_starts hc _ h1
            cases hr2 : x.rest (s.line + k + 1) with
            | nil => exact absurd hr2 this
            | cons => simp
        · cases r <;> exact hd
      | succ i =>
        obtain ⟨o', h11, h12, h13⟩ := h10 i rs' hi
        refine ⟨o', h11, ?_, ?_⟩
        · rw [h12]; simp
        · have hf : ∀ l, s1.fresh x rs' l = s.fresh x rs' l := by intro l; unfold Parser.fresh; rw [h5]
          simp only [hf] at h13
          simpa using h13

/-- C37: the rows that `C37_sequence` speaks of exist and are determined by the input, from every line on. -/
theorem C37_rows_exist (x : Ctx) (n : Nat) : ∃ L, x.MlRows n L ∧ ∀ L', x.MlRows n L' → L' = L := by
  obtain ⟨L, h⟩ := mlRows_exist x n
  exact ⟨L, h, fun L' h' => mlRows_unique h' h⟩

/-- C37: the rows of a new parser are those from line 0 on, those behind the line of the first row with `ignore_header`. -/
theorem C37_new_parser (hx : x.MlOk) (h : Parser.Created x s) {L : List MlRow} :
    (x.cfg.ignoreHeader = false → (x.MlRows s.line L ↔ x.MlRows 0 L)) ∧
    (x.cfg.ignoreHeader = true → ∀ m, x.Starts 0 m → (x.MlRows s.line L ↔ x.MlRows (m + 1) L)) := by
  have key : ∀ a b, a ≤ b → x.rest a = x.rest b → (x.MlRows b L ↔ x.MlRows a L) := by
    intro a b hab hr
    refine ⟨fun hb => ?_, mlRows_same hab hr⟩
    obtain ⟨L', hL'⟩ := mlRows_exist x a
    rw [mlRows_unique hb (mlRows_same hab hr hL')]
    exact hL'
  obtain ⟨h1, _⟩ := created_rest hx.live.good h
  constructor
  · intro hih
    refine key 0 s.line (Nat.zero_le _) ?_
    rw [h1]; simp [Ctx.rows, hih]
  · intro hih m hm
    obtain ⟨l, _, hl⟩ := rest_starts hm
    have hr : x.rest s.line = x.rest (m + 1) := by rw [h1]; simp [Ctx.rows, hih, hl]
    rcases Nat.le_total (m + 1) s.line with hle | hle
    · exact key _ _ hle hr.symm
    · exact (key _ _ hle hr).symm

/-! ## The properties of all parsers, with multiline (C28, C29, C30, C54) -/

/-- C33, with multiline: if the next row is a single line, `ignore_next` skips exactly this row, and the next `get_next`
returns the row behind it (`k'`: it is made of `k' + 1` lines).  Missing: rows of several lines, of which only the first line
is skipped, see `C33_row_of_several_lines`. -/
theorem C33_single_line_row_multiline_partial (hx : x.MlOk) (h : Parser.ReachT x s) (hk : x.RowTo s.line 0) :
    ∃ o s', Parser.step x .ignoreNext s = some (o, s') ∧ s'.eof = false ∧
      (∀ n, x.Starts (s.line + 1) n → s'.line = n) ∧
      ∀ n k', x.Starts (s.line + 1) n → x.RowTo n k' → ∀ rs, rs ≠ [] → ∀ vs,
        (Parser.Yields x (Parser.getNext x rs s') vs ↔ Ssp.Yields x.cfg (s.fresh x rs (x.joined n k')) vs) := by
  have hr := rest_of_inside hx h (by have := hk.inside; omega)
  have hst := starts_here hx.live h hr
  obtain ⟨l, hl, hrl⟩ := rest_starts hst
  obtain ⟨o, s', h1, _, h2, h3, _, _, h4, _⟩ := C33_ignore_next_partial hx.ok h hrl
  have h' := h.step (by intro _ a as h; cases h) h1
  have key : ∀ n, x.Starts (s.line + 1) n → s'.line = n := by
    intro n hn
    obtain ⟨l', _, hr'⟩ := rest_starts hn
    have hne : x.rest s'.line ≠ [] := by rw [h2, hr']; simp
    have hs' := starts_here hx.live h' hne
    have hle : s.line + 1 ≤ s'.line := by
      false_or_by_contra
      have e : s'.line ≤ s.line := by omega
      have hlen : (x.rest s'.line).length ≥ (x.rest s.line).length := by
        obtain ⟨d, hd⟩ := Nat.exists_eq_add_of_le e
        rw [hd]
        unfold Ctx.rest
        rw [← List.drop_drop]
        exact ((List.drop_sublist d _).filter _).length_le
      rw [h2, hrl] at hlen
      simp at hlen
      omega
    exact (starts_same hle h2.symm hs').unique hn
  refine ⟨o, s', h1, h3, key, ?_⟩
  intro n k' hn hk' rs hrs vs
  have := key n hn
  subst this
  rw [(C37_row hx h' hrs hk').1 vs]
  unfold Parser.fresh
  rw [h4]

/-- C54, with multiline: a constructor comes back. -/
theorem C54_construction_multiline {x : Ctx} (hx : x.Ok) :
    (∀ u d, x.src = .file u d → ∃ s, Parser.newFile x {} = .ok () s) ∧
    (∀ d n, x.src = .buf (some d) n → ∃ s, Parser.newBuffer x {} = .ok () s) ∧
    (∀ n, x.src = .buf none n → (∃ s, Parser.newBuffer x {} = .ok () s) ∨ ∃ e s, Parser.newBuffer x {} = .exc e s) ∧
    (x.src = .buf none 0 → (∃ s, Parser.newFile x {} = .ok () s) ∨ ∃ e s, Parser.newFile x {} = .exc e s) :=
  construction_of hx.liveT.good

/-- C54, with multiline: whatever calls are made on a parser, with `or_else` behind complete rows only, they all come back,
and no call has undefined behaviour.  Missing: `or_else` behind other rows, see `C54_or_else_after_realloc`; for inputs in
which all rows are complete see `C54_complete_input`. -/
theorem C54_calls_multiline_partial {x : Ctx} (hx : x.Ok) {s : Parser} (h : Parser.ReachT x s)
    (ops : List Op) (hT : Parser.Covered x ops s) : ∃ os s', Parser.run x ops s = some (os, s') ∧ os.length = ops.length := by
  have hl := hx.liveT
  obtain ⟨t, hp, hi, _⟩ := h.sim hl
  obtain ⟨os, _, s', _, h1, _⟩ := run_simT hl ops hT.run hp hi
  exact ⟨os, s', h1, run_length ops h1⟩

/-- C28, with multiline: once `eof()` is true it stays true under every sequence of calls, and every `get_next` is an error
that returns no values. -/
theorem C28_eof_is_final_multiline {x : Ctx} (hx : x.Ok) (hml : x.cfg.multiline = true) :
    ∀ (ops : List Op) {s : Parser}, Parser.ReachT x s → s.eof = true → (∀ rs, .getNext rs ∈ ops → rs ≠ []) →
    ∃ os s', Parser.run x ops s = some (os, s') ∧ s'.eof = true ∧ (∀ o ∈ os, o.eof = true) ∧
      ∀ (k : Nat) (rs : List Req), ops[k]? = some (.getNext rs) → ∃ o, os[k]? = some o ∧ NoRow o := by
  have hl := hx.liveT
  intro ops
  induction ops with
  | nil => intro s _ he _; exact ⟨[], s, rfl, he, by simp, by simp⟩
  | cons op ops ih =>
    intro s h he hne
    have hT : op.Tame x s.line s.eof := fun _ _ _ _ => .inr (.inl he)
    obtain ⟨t, hp', hi, _⟩ := h.sim hl
    obtain ⟨o, o', s1, t1, h1, h2, h3, h4, _⟩ := step_simT hl op hT hp' hi
    have he1 : s1.eof = true := by
      rw [h3.eof]
      have := mexec_eof hx op hi (hp'.eof ▸ he)
      unfold Mach.step at h2
      cases hop : op.mexec x t with
      | ok r t' => rw [hop] at h2 this; cases h2; exact this
      | exc e t' => rw [hop] at h2 this; cases h2; exact this
      | ub => rw [hop] at h2; cases h2
      | nofuel => rw [hop] at h2; cases h2
    obtain ⟨os, s', h5, h6, h7, h8⟩ := ih (h.step hT h1) he1
      (fun rs h => hne rs (by simp [h]))
    have ho : o.eof = true := by
      have : o.eof = s1.eof := by
        unfold Parser.step at h1
        split at h1 <;> first | (cases h1; rfl) | cases h1
      rw [this, he1]
    refine ⟨o :: os, s', by simp [Parser.run, h1, h5], h6, ?_, ?_⟩
    · intro o1 hm1
      rcases List.mem_cons.mp hm1 with rfl | hm1
      · exact ho
      · exact h7 _ hm1
    · intro k rs hk
      cases k with
      | zero =>
        cases hk
        have hr : x.rest s.line = [] := by rw [hp'.line]; exact hi.rest_eof (hp'.eof ▸ he)
        obtain ⟨s2, _, _, g1, _⟩ := over_coreM hx hml h (hne rs (by simp)) hr
        obtain ⟨o2, g2, _, g3⟩ := step_of_error g1
        rw [g2] at h1
        cases h1
        exact ⟨o, rfl, g3⟩
      | succ k => exact h8 k rs hk

/-- C29, with multiline: as long as `eof()` is false, every `get_next` moves on by at least one line; with `C37_sequence`,
`eof()` becomes true with the call for the last row. -/
theorem C29_progress_multiline {x : Ctx} (hx : x.MlOk) {s : Parser} (h : Parser.ReachT x s) {rs : List Req} (hrs : rs ≠ [])
    (hr : x.rest s.line ≠ []) :
    ∃ o s', Parser.step x (.getNext rs) s = some (o, s') ∧ s.line < s'.line := by
  obtain ⟨k, s', res, h1, _, _, h4, _⟩ := multi_core hx h hrs hr
  exact ⟨_, s', h1.step, by omega⟩

/-- one `get_next` goes on by one row -/
theorem row_of_rows (hx : x.MlOk) {s : Parser} {L : List MlRow} (h : Parser.ReachT x s) (hL : x.MlRows s.line L) (hrs : rs ≠ [])
    (hr : x.rest s.line ≠ []) : ∃ k s' res, RowOut x (s.line + k + 1) (Parser.getNext x rs s) s' res ∧ s'.eof = (x.rest s'.line).isEmpty ∧
      ∃ r L', L = r :: L' ∧ x.MlRows s'.line L' := by
  have hst := starts_here hx.live h hr
  obtain ⟨k, s1, res, h1, h2, h3, h4, _, h5, _, h6⟩ := multi_core hx h hrs hr
  refine ⟨k, s1, res, h1, by rw [h3, h2], ?_⟩
  obtain ⟨L', hL'⟩ := mlRows_exist x (s.line + k + 1)
  have hnext := mlRows_same h4 h2.symm hL'
  rcases h6 with ⟨e1, e2, _⟩ | ⟨e1, e2⟩ | ⟨e1, e2, e3⟩
  · exact ⟨_, L', mlRows_unique hL (.text hst e1 hL'), hnext⟩
  · exact ⟨_, L', mlRows_unique hL (.tooLong hst e1 hL'), hnext⟩
  · have hrest : x.rest (s.line + k + 1) = [] := rest_none (by omega)
    exact ⟨_, [], mlRows_unique hL (.unfinished hst e1), .done (not_starts (by rw [h2, hrest]))⟩

/-- there are rows iff there are lines left -/
theorem mlRows_rest {s : Parser} {L : List MlRow} (hL : x.MlRows s.line L) : L = [] ↔ x.rest s.line = [] := by
  constructor
  · rintro rfl
    false_or_by_contra
    rename_i hc
    obtain ⟨m, hm⟩ := starts_of_rest hc
    cases hL with
    | done hn => exact hn m hm
  · intro hc
    exact mlRows_unique hL (.done (not_starts hc))

/-- C29, with multiline: the loop `while (!p.eof()) p.get_next()` of a parser with the rows `L` left ends, after one call per
row - also for rows that are errors -, and then `eof()` is true.  Missing from the full statement, as without multiline:
`eof()` must be true when no row is left, it is not after the last row was skipped. -/
theorem C29_loop_multiline_partial (hx : x.MlOk) (hth : x.cfg.mode ≠ .throw) (hrs : rs ≠ []) :
    ∀ (L : List MlRow) {s : Parser}, Parser.ReachT x s → s.eof = (x.rest s.line).isEmpty → x.MlRows s.line L →
    ∃ vss s', Parser.whileNotEof x rs (L.length + 1) s = .ok vss s' ∧ vss.length = L.length ∧ s'.eof = true := by
  intro L
  induction L with
  | nil =>
    intro s h he hL
    rw [(mlRows_rest hL).mp rfl] at he
    refine ⟨[], s, ?_, rfl, he⟩
    unfold Parser.whileNotEof
    simp only [M.get_bind]
    rw [he]
    rfl
  | cons r L ih =>
    intro s h he hL
    have hr : x.rest s.line ≠ [] := fun hc => by cases (mlRows_rest hL).mpr hc
    obtain ⟨k, s1, res, h1, h2, r', L', h3, h4⟩ := row_of_rows hx h hL hrs hr
    cases h3
    obtain ⟨vs, hv⟩ : ∃ vs, Parser.getNext x rs s = .ok vs s1 := by
      have h1' := h1
      unfold RowOut at h1'
      cases res with
      | ok vs => exact ⟨vs, h1'.1⟩
      | error m =>
        simp only [hth, if_false] at h1'
        obtain ⟨vs, h, _⟩ := h1'
        exact ⟨vs, h⟩
    obtain ⟨vss, s', e1, e2, e3⟩ := ih (h.step .getNext h1.step) h2 h4
    refine ⟨vs :: vss, s', ?_, by simp [e2], e3⟩
    have he' : s.eof = false := by
      rw [he]
      cases hc : x.rest s.line with
      | nil => exact absurd hc hr
      | cons => rfl
    conv => lhs; unfold Parser.whileNotEof
    simp only [M.get_bind, he', Bool.false_eq_true, if_false]
    rw [M.bind_of_ok hv]
    rw [List.length_cons, M.bind_of_ok e1]
    rfl

/-- C29, with multiline: a new parser meets the hypothesis of `C29_loop_multiline_partial`, unless there is only the line
that `ignore_header` skipped. -/
theorem C29_new_parser_multiline (hx : x.MlOk) {s : Parser} (h : Parser.Created x s) (h0 : x.cfg.ignoreHeader = false ∨ (lines x.src.data = [] ∨ x.rows ≠ [])) :
    s.eof = (x.rest s.line).isEmpty := by
  obtain ⟨h1, h2, _, _⟩ := created_rest hx.live.good h
  rw [h1, h2]
  unfold Ctx.rows
  rcases h0 with h0 | h0 | h0
  · simp [h0]
  · have : x.rest 0 = [] := by unfold Ctx.rest; rw [h0]; rfl
    rw [this]; simp
  · unfold Ctx.rows at h0
    cases hr : x.rest 0 with
    | nil => simp
    | cons l ls =>
      rw [hr] at h0
      cases hd : List.drop (if x.cfg.ignoreHeader then 1 else 0) (l :: ls) with
      | nil => exact absurd hd h0
      | cons => rfl

/-- C30, with multiline: when `l` is the line the next row begins with, the raw lines of the data are `pre`, the line of `l`,
and others; `line()` is the number of the lines `pre` - also those that were joined into rows - and `position()` their
length in bytes. -/
theorem C30_location_multiline {x : Ctx} (hx : x.Ok) {s : Parser} (h : Parser.ReachT x s) {l : Bytes}
    {ls : List Bytes} (hr : x.rest s.line = l :: ls) :
    ∃ pre raw post, x.src.data = pre.flatten ++ raw ++ post ∧ rawLines x.src.data = pre ++ raw :: rawLines post ∧
      chop raw = l ∧ s.line = pre.length ∧ s.position = pre.flatten.length := by
  obtain ⟨t, hp', hi, _⟩ := h.sim hx.liveT
  exact location_of hp' hi hr

/-- C30, with multiline, for buffers: `position()` at the end of the input is the size of the data. -/
theorem C30_at_end_multiline {x : Ctx} (hx : x.Ok) {s : Parser} (h : Parser.ReachT x s)
    (hr : x.rest s.line = []) (hb : x.src.isBuf) : s.position = x.src.data.length := by
  obtain ⟨t, hp', hi, _⟩ := h.sim hx.liveT
  exact at_end_of hp' hi hr (.inr hb)

/-! ## C38: `multiline_restricted` -/

/-- C38: a row has at most `N + 1` lines. -/
theorem C38_bound (x : Ctx) {n : Nat} (h : x.RowTo n k) (hN : 0 < x.cfg.mlLimit) : k ≤ x.cfg.mlLimit := by
  false_or_by_contra
  exact (h.before x.cfg.mlLimit (by omega)).2 ⟨hN, Nat.le_refl _⟩

/-- C38: when a row is not complete after `N + 1` lines, `get_next` reports that the limit is reached, at the line
`N + 1` of the row (see `C37_next_row` for the row that follows). -/
theorem C38_too_long (hx : x.MlOk) (h : Parser.ReachT x s) (hrs : rs ≠ []) (hN : 0 < x.cfg.mlLimit)
    (hin : s.line + x.cfg.mlLimit < (lines x.src.data).length)
    (hk : ∀ i, i ≤ x.cfg.mlLimit → x.GoesOn (x.joined s.line i)) :
    x.RowTooLong s.line x.cfg.mlLimit ∧ (∀ vs, ¬ Parser.Yields x (Parser.getNext x rs s) vs) ∧
    (x.cfg.ignoreEmpty = false ∨ x.cfg.mode ≠ .throw →
      Parser.Fails x (Parser.getNext x rs s) (x.at (s.line + x.cfg.mlLimit + 1) (bs "multiline limit reached"))) := by
  have hlong : x.RowTooLong s.line x.cfg.mlLimit := by
    refine ⟨hin, hk _ (Nat.le_refl _), ⟨hN, Nat.le_refl _⟩, fun i hi => ⟨hk i (by omega), fun hl => ?_⟩⟩
    have := hl.2; omega
  obtain ⟨k', s', res, h1, _, _, _, hln, _, _, h2⟩ := multi_core hx h hrs (rest_of_inside hx h (by omega))
  rcases h2 with ⟨h2, _⟩ | ⟨h2, h3⟩ | ⟨h2, _⟩
  · exact (h2.not_tooLong hlong).elim
  · cases hlong.unique h2
    subst h3
    refine ⟨hlong, fun vs hy => (by have := (h1.yields_iff vs).mp hy; cases this), fun hie => ?_⟩
    have := h1.fails
    cases hmode : x.cfg.mode with
    | bool =>
      unfold Parser.Fails at this ⊢
      rw [hmode] at this ⊢
      exact this
    | string => rw [hmode] at this; simpa [Conv.msgMultilineLimit] using this
    | throw =>
      rw [hmode] at this
      rw [← hln (hie.resolve_right (by simp [hmode]))]
      simpa [Conv.msgMultilineLimit] using this
  · exact (hlong.not_open h2).elim

/-- the same input and setup without the limit -/
def Ctx.unlimited (x : Ctx) : Ctx := { x with cfg := { x.cfg with mlLimit := 0 } }

theorem unlimited_goesOn (hd : x.delim ≠ []) (t : Bytes) : x.unlimited.GoesOn t ↔ x.GoesOn t := by
  unfold Ctx.GoesOn Cfg.InQuote
  have : decodeRow x.unlimited.cfg x.unlimited.delim (cutNul t) = decodeRow x.cfg x.delim (cutNul t) :=
    decodeRow_congr (c := x.cfg) (c' := x.unlimited.cfg) ⟨rfl, rfl, rfl, rfl⟩ hd (cutNul t)
  rw [this]
  exact Iff.rfl

/-- C38: a row of the same input without the limit which has at most `N + 1` lines is the same row with the limit. -/
theorem C38_rows_unaffected (hd : x.delim ≠ []) {n : Nat} (h : x.unlimited.RowTo n k) (hk : x.cfg.mlLimit = 0 ∨ k ≤ x.cfg.mlLimit) :
    x.RowTo n k := by
  refine ⟨h.inside, fun hg => h.stops ((unlimited_goesOn hd _).mpr hg), fun i hi => ⟨(unlimited_goesOn hd _).mp (h.before i hi).1, ?_⟩⟩
  rintro ⟨h1, h2⟩
  omega

theorem _root_.Ssp.Ctx.MlOk.unlimited (hx : x.MlOk) : x.unlimited.MlOk := by
  refine ⟨⟨⟨hx.ok.wf.1, hx.ok.wf.2, hx.ok.wf.3, hx.ok.wf.4, hx.ok.wf.5, hx.ok.wf.6, hx.ok.wf.7,
    hx.ok.wf.8, hx.ok.wf.9, hx.ok.wf.10⟩, hx.ok.delim, hx.ok.delim0, hx.ok.fine⟩, hx.ml, hx.clean, hx.lf, fun n k hi h => hx.quotes n k hi ?_⟩
  obtain ⟨a, h⟩ := h
  refine ⟨a, ?_⟩
  rw [← h]
  exact congrArg (·.2) (decodeRow_congr (c := x.unlimited.cfg) (c' := x.cfg) ⟨rfl, rfl, rfl, rfl⟩ hx.ok.delim _)

/-- a newly made converter does not care about the limit -/
theorem yields_unlimited (hx : x.MlOk) {s s' : Parser} (h : Parser.ReachT x s) (h' : Parser.ReachT x.unlimited s') (rs : List Req) {l : Bytes}
    (hs : s.converter l = s'.converter l) (hc : ¬ x.GoesOn l) (vs : List Val) :
    Ssp.Yields x.cfg (s.fresh x rs l) vs ↔ Ssp.Yields x.unlimited.cfg (s'.fresh x.unlimited rs l) vs := by
  have hx' : x.unlimited.MlOk := hx.unlimited
  have hdec : decodeRow x.unlimited.cfg x.unlimited.delim (cutNul l) = decodeRow x.cfg x.delim (cutNul l) :=
    decodeRow_congr (c := x.cfg) (c' := x.unlimited.cfg) ⟨rfl, rfl, rfl, rfl⟩ hx.ok.delim (cutNul l)
  have hopen : (decodeRow x.cfg x.delim (cutNul l)).2.isOpenQuote = false := by
    cases hd : (decodeRow x.cfg x.delim (cutNul l)).2 with
    | openQuote a => exact absurd (.inr ⟨a, hd⟩) hc
    | _ => rfl
  obtain ⟨t, hp, _, _⟩ := h.sim hx.live
  obtain ⟨t', hp', _, _⟩ := h'.sim hx'.live
  have h1 := Parser.fresh_closed hx.ok hp rs hopen
  have h2 := Parser.fresh_closed hx'.ok hp' rs (by rw [hdec]; exact hopen)
  have hspl : splitRes x.unlimited.cfg x.unlimited.delim (cutNul l) = splitRes x.cfg x.delim (cutNul l) := by
    unfold splitRes
    rw [hdec]; rfl
  have hsel : t'.rd.sel = t.rd.sel ∧ t'.rd.ncols = t.rd.ncols := by
    unfold Parser.converter at hs
    rw [hp.base.cur.sel, hp.base.cur.ncols, hp'.base.cur.sel, hp'.base.cur.ncols] at hs
    injection hs with _ _ h3 h4
    exact ⟨h3.symm, h4.symm⟩
  rw [hspl, hsel.1, hsel.2] at h2
  generalize rowOf rs t.rd.sel t.rd.ncols (splitRes x.cfg x.delim (cutNul l)) = r at h1 h2
  cases r with
  | ok ws => exact ⟨fun h => yields_unique h1 h ▸ h2, fun h => yields_unique h2 h ▸ h1⟩
  | error m => exact ⟨fun h => absurd h (fails_not_yields h1), fun h => absurd h (fails_not_yields h2)⟩

/-- C38: at a row of at most `N + 1` lines a parser with the limit yields what a parser without it yields (at the same
line, with the same column selection). -/
theorem C38_unaffected (hx : x.MlOk) {s s' : Parser} (h : Parser.ReachT x s) (h' : Parser.ReachT x.unlimited s')
    (hline : s'.line = s.line) (hsel : ∀ l, s'.converter l = s.converter l) (hrs : rs ≠ [])
    (hk : x.unlimited.RowTo s.line k) (hN : x.cfg.mlLimit = 0 ∨ k ≤ x.cfg.mlLimit) (vs : List Val) :
    Parser.Yields x (Parser.getNext x rs s) vs ↔ Parser.Yields x.unlimited (Parser.getNext x.unlimited rs s') vs := by
  have hx' : x.unlimited.MlOk := hx.unlimited
  have hk1 := C38_rows_unaffected hx.ok.delim hk hN
  rw [(C37_row hx h hrs hk1).1 vs, (C37_row hx' h' hrs (hline ▸ hk)).1 vs, hline]
  exact yields_unlimited hx h h' rs (hsel _).symm hk1.stops vs

/-! ## Examples -/

namespace Demo

/-- quotes, an escape character, multiline -/
def cm : Cfg := { mode := .string, quote := some 34, escape := [92], multiline := true }

theorem cm_wf : cm.WF := by constructor <;> simp [cm] <;> decide

/-- with a limit of one additional line -/
def cl : Cfg := { cm with mlLimit := 1 }

theorem cl_wf : cl.WF := by constructor <;> simp [cl, cm] <;> decide

theorem mlOk {c : Cfg} (h : c.WF) (hm : c.multiline = true) (hq : c.quote ≠ some 44) (he : 44 ∉ c.escape) (hl : LF ∉ c.escape) {d : String}
    (hn : NUL ∉ bs d) : (ctx c d).MlOk :=
  ⟨ok c h d, hm, .inl ⟨by show bs "," ≠ []; decide, by
    intro y hy
    have : some (44 : Byte) = some y := hy ▸ (by decide : some (44 : Byte) = (bs ",").head?)
    cases this; exact ⟨hq, he⟩⟩, hl, fun _ _ _ _ => joined_nul hn⟩

theorem cm_ok {d : String} (hn : NUL ∉ bs d) : (ctx cm d).MlOk := mlOk cm_wf rfl (by decide) (by decide) (by decide) hn

theorem cl_ok {d : String} (hn : NUL ∉ bs d) : (ctx cl d).MlOk := mlOk cl_wf rfl (by decide) (by decide) (by decide) hn

theorem createdM {c : Cfg} (h : c.WF) (d : String) : Parser.Created (ctx c d) (start c d) := by
  obtain ⟨s, hs⟩ := (C54_construction_multiline (ok c h d)).2.1 (bs d) (bs d).length rfl
  refine .buffer rfl ?_
  unfold start
  rw [hs]

/-- four rows; the second one has three lines with different terminators -/
def text : String := "a,1\n\"b\r\nc\n\"\"\",2\ne\\\nf,3\r\ng,4"

end Demo

open Demo in
/-- a row in quotes over three lines, an escaped end of line -/
example : (runs cm text [.getNext [str, num], .getNext [str, num], .getNext [str, num], .getNext [str, num], .getNext [str, num]]).map
      (fun o => (o.ret, o.eof, o.line)) =
    [(.row (some [.str (bs "a"), .int 1]), false, 1), (.row (some [.str (bs "b\r\nc\n\""), .int 2]), false, 4),
     (.row (some [.str (bs "e\nf"), .int 3]), false, 6), (.row (some [.str (bs "g"), .int 4]), true, 7), (.row none, true, 7)] := by
  decide +kernel

open Demo in
/-- the hypotheses of `C37_row`, `C37_error_partial` and `C37_next_row` are met: a parser at a row of three lines -/
theorem Demo.at_long_row : ∃ s, Parser.ReachT (ctx cm text) s ∧ (ctx cm text).MlOk ∧ (ctx cm text).RowTo s.line 2 ∧
    (ctx cm text).joined s.line 2 = bs "\"b\r\nc\n\"\"\",2" := by
  have hn : NUL ∉ bs text := by decide +kernel
  have hc := createdM cm_wf text
  obtain ⟨os, s, h, _⟩ := C54_calls_multiline_partial (ok cm cm_wf text) hc.reachT [.getNext [str, num]]
    (.noOrElse (by simp))
  have hline : s.line = 1 := by
    have h' := congrArg (Option.map fun p : List Obs × Parser => p.2.line) h
    simp only [Option.map_some] at h'
    have : some s.line = some 1 := by rw [← h']; decide +kernel
    exact Option.some.inj this
  refine ⟨s, hc.reachT.run (.noOrElse (by simp)) h, cm_ok hn, ?_, ?_⟩
  · rw [hline]
    have e0 : (ctx cm text).joined 1 0 = bs "\"b" := by decide +kernel
    have e1 : (ctx cm text).joined 1 1 = bs "\"b\r\nc" := by decide +kernel
    have e2 : (ctx cm text).joined 1 2 = bs "\"b\r\nc\n\"\"\",2" := by decide +kernel
    have lim : ∀ i, ¬ cm.Limit i := by rintro i ⟨h, _⟩; cases h
    refine ⟨by decide +kernel, ?_, ?_⟩
    · rw [e2]
      rintro (h | ⟨a, h⟩)
      · revert h; unfold Cfg.Escaped; decide +kernel
      · have : (decodeRow (ctx cm text).cfg (ctx cm text).delim (cutNul (bs "\"b\r\nc\n\"\"\",2"))).2 = .eol := by decide +kernel
        rw [this] at h; cases h
    · intro i hi
      match i, hi with
      | 0, _ => rw [e0]; exact ⟨.inr ⟨bs "b", by decide +kernel⟩, lim 0⟩
      | 1, _ => rw [e1]; exact ⟨.inr ⟨bs "b\r\nc", by decide +kernel⟩, lim 1⟩
  · rw [hline]; decide +kernel

open Demo in
/-- the hypotheses of `C29_loop_multiline_partial` are met by a new parser, and the loop over the four rows of `text` ends after
four calls -/
example : (∃ L, Parser.ReachT (ctx cm text) (start cm text) ∧ (ctx cm text).MlRows (start cm text).line L ∧
      (start cm text).eof = ((ctx cm text).rest (start cm text).line).isEmpty) ∧
    ∃ vss s', Parser.whileNotEof (ctx cm text) [str, num] 5 (start cm text) = .ok vss s' ∧ vss.length = 4 ∧ s'.eof = true := by
  have hn : NUL ∉ bs text := by decide +kernel
  have hc := createdM cm_wf text
  obtain ⟨L, hL, _⟩ := C37_rows_exist (ctx cm text) (start cm text).line
  exact ⟨⟨L, hc.reachT, hL, C29_new_parser_multiline (cm_ok hn) hc (.inl rfl)⟩,
    Res.ok_of (P := fun (vss : List (List Val)) (s' : Parser) => vss.length = 4 ∧ s'.eof = true) (by decide +kernel)⟩

open Demo in
/-- a limit of one additional line: the row of three lines is an error, the parser goes on with its third line -/
example : (runs cl text [.getNext [str, num], .getNext [str, num], .getNext [str, num], .getNext [str, num]]).map
      (fun o => (o.ret, o.msg, o.line)) =
    [(.row (some [.str (bs "a"), .int 1]), [], 1), (.row none, bs "f 3: multiline limit reached", 3),
     (.row none, bs "f 5: multiline limit reached", 5), (.row (some [.str (bs "f"), .int 3]), [], 6)] := by
  decide +kernel

open Demo in
/-- the hypotheses of `C38_too_long` are met by a new parser -/
example : (ctx cl "\"a\nb\nc\",1").MlOk ∧ Parser.ReachT (ctx cl "\"a\nb\nc\",1") (start cl "\"a\nb\nc\",1") ∧
    (start cl "\"a\nb\nc\",1").line + cl.mlLimit < (lines (ctx cl "\"a\nb\nc\",1").src.data).length ∧
    (∀ i, i ≤ cl.mlLimit → (ctx cl "\"a\nb\nc\",1").GoesOn ((ctx cl "\"a\nb\nc\",1").joined (start cl "\"a\nb\nc\",1").line i)) := by
  have hn : NUL ∉ bs "\"a\nb\nc\",1" := by decide +kernel
  refine ⟨cl_ok hn, (createdM cl_wf _).reachT, by decide +kernel, ?_⟩
  intro i hi
  match i, hi with
  | 0, _ => exact .inr ⟨bs "a", by decide +kernel⟩
  | 1, _ => exact .inr ⟨bs "a\nb", by decide +kernel⟩

open Demo in
/-- C37, found while proving `C37_error_partial`: the position in the error of a row of several lines is that in the buffer
from which the escape characters of the earlier lines are already removed: 3 here, where a newly made converter says 4. -/
theorem C37_position_of_mismatched_quote :
    (runs cm "\"\\a\n\"x,1\nb,2" [.getNext [str, num]]).map (fun o => (o.valid, o.msg)) =
      [(false, bs "f 2: mismatched quote at position: 3")] ∧
    Ssp.Fails cm (Conv.convertLine cm [str, num] (bs ",") { spl := { mem := bs "\"\\a\n\"x,1" ++ [NUL] } })
      (bs "mismatched quote at position: 4") := by
  refine ⟨by decide +kernel, _, _, rfl, ?_, ?_⟩ <;> decide +kernel

namespace Demo

/-- with another delimiter -/
def ctxD (c : Cfg) (delim d : String) : Ctx := { ctx c d with delim := bs delim }

/-- a new parser with that delimiter -/
def startD (c : Cfg) (delim d : String) : Parser :=
  match Parser.newBuffer (ctxD c delim d) {} with
  | .ok _ s => s
  | _ => {}

theorem okD {c : Cfg} (h : c.WF) {delim : String} (d : String) (h1 : bs delim ≠ []) (h2 : NUL ∉ bs delim) : (ctxD c delim d).Ok :=
  ⟨h, h1, h2, rfl⟩

theorem createdD {c : Cfg} (h : c.WF) {delim : String} (d : String) (h1 : bs delim ≠ []) (h2 : NUL ∉ bs delim) :
    Parser.Created (ctxD c delim d) (startD c delim d) := by
  obtain ⟨s, hs⟩ := (C54_construction_multiline (okD h d h1 h2)).2.1 (bs d) (bs d).length rfl
  refine .buffer rfl ?_
  unfold startD
  rw [hs]

end Demo

open Demo in
/-- a delimiter that starts with the quote, where `C37_row` and the others apply: a row of two lines with a doubled quote at
the end of the first one, and the delimiter behind a quoted field -/
example : (ctxD cm "\"|" "\"a\"\"\nb\"|2\n").MlOk ∧ Parser.Created (ctxD cm "\"|" "\"a\"\"\nb\"|2\n") (startD cm "\"|" "\"a\"\"\nb\"|2\n") ∧
    (ctxD cm "\"|" "\"a\"\"\nb\"|2\n").RowTo 0 1 := by
  have h1 : bs "\"|" ≠ [] := by decide
  have h2 : NUL ∉ bs "\"|" := by decide
  refine ⟨⟨okD cm_wf _ h1 h2, rfl, .inr ⟨h1, by decide, by decide⟩, by decide, fun _ _ _ _ => joined_nul (by decide +kernel)⟩,
    createdD cm_wf _ h1 h2, by decide +kernel, ?_, fun i hi => ?_⟩
  · rintro (h | ⟨a, h⟩)
    · unfold Cfg.Escaped at h
      revert h; decide +kernel
    · have : (Spec.decodeRow cm (bs "\"|") (cutNul ((ctxD cm "\"|" "\"a\"\"\nb\"|2\n").joined 0 1))).2.isOpenQuote = false := by
        decide +kernel
      rw [show (Spec.decodeRow cm (bs "\"|") (cutNul ((ctxD cm "\"|" "\"a\"\"\nb\"|2\n").joined 0 1))).2 = _ from h] at this
      cases this
  · obtain rfl : i = 0 := by omega
    exact ⟨.inr ⟨bs "a\"", by decide +kernel⟩, by rintro ⟨h, _⟩; exact absurd h (by decide)⟩

open Demo in
/-- C37: what `MlOk` excludes.  With a delimiter that starts with the quote and goes on with the end of a line, a row is cut in
the middle of the delimiter: the text `"a""`, `b` has two fields for a newly made converter, but the parser looks at the first
line alone, takes the two quotes for a doubled quote, and finds the quoted field open at the end of the input. -/
theorem C37_delimiter_with_end_of_line :
    Ssp.Yields cm (Conv.convertLine cm [str, str] (bs "\"\n") { spl := { mem := bs "\"a\"\"\nb" ++ [NUL] } })
      [.str (bs "a"), .str (bs "b")] ∧
    ((Parser.run (ctxD cm "\"\n" "\"a\"\"\nb") [.getNext [str, str]] (startD cm "\"\n" "\"a\"\"\nb")).map fun r =>
      r.1.map fun o => (o.ret, o.msg)) = some [(.row none, bs "f 2: unterminated quote")] := by
  refine ⟨?_, by decide +kernel⟩
  obtain ⟨vs, s, h, rfl, hv⟩ := Res.ok_of (r := Conv.convertLine cm [str, str] (bs "\"\n") { spl := { mem := bs "\"a\"\"\nb" ++ [NUL] } })
    (P := fun vs s => vs = [.str (bs "a"), .str (bs "b")] ∧ Conv.valid cm s = true) (by decide +kernel)
  exact ⟨s, h, hv⟩

open Demo in
/-- rows that are open at the end of the input -/
example : (runs cm "\"a,1\nb" [.getNext [str, num]]).map (fun o => (o.ret, o.msg, o.eof)) =
      [(.row none, bs "f 2: unterminated quote", true)] ∧
    (runs cm "a,1\nb\\" [.getNext [str, num], .getNext [str, num]]).map (fun o => (o.msg, o.eof)) =
      [([], false), (bs "f 2: unterminated escape at the end of the line", true)] := by
  decide +kernel

open Demo in
/-- C41, C54, found while proving `C54_calls_multiline_partial`: `or_else` behind a row with too many lines.  The row
`x,"a`, `b`, `c` is an error ("multiline limit reached"), but `or_else` is engaged with the columns `x` and `x,"`, and the
parser is valid. -/
theorem C41_or_else_after_limit :
    (runs cl "x,\"a\nb\nc" [.chain ⟨[num], none⟩ [⟨[str, str], none⟩]]).map (fun o => (o.ret, o.valid)) =
      [(.opts [(none, false), (some [.str (bs "x"), .str (bs "x,\"")], false)], true)] := by
  decide +kernel

open Demo in
/-- C54: the same with an escaped end of line in the second line: the buffer is reallocated without being split again,
`or_else` reads the columns through pointers into the old one - undefined behaviour (use after free). -/
theorem C54_or_else_after_realloc :
    (ctx cl "x,\"a\nb\\\nc").MlOk ∧ Parser.Created (ctx cl "x,\"a\nb\\\nc") (start cl "x,\"a\nb\\\nc") ∧
    (Parser.run (ctx cl "x,\"a\nb\\\nc") [.chain ⟨[num], none⟩ [⟨[str, str], none⟩]] (start cl "x,\"a\nb\\\nc")).isNone = true := by
  have hn : NUL ∉ bs "x,\"a\nb\\\nc" := by decide +kernel
  exact ⟨cl_ok hn, createdM cl_wf _, by decide +kernel⟩

open Demo in
/-- C33: with multiline `ignore_next` skips a line, not a row: of a row of two lines the second one is read as a row. -/
theorem C33_row_of_several_lines :
    (runs cm "\"a\nb\",1\nc,2\n" [.ignoreNext, .getNext [str, num]]).map (fun o => (o.ret, o.valid, o.line)) =
      [(.flag true, true, 1), (.row (some [.str (bs "b\""), .int 1]), true, 2)] ∧
    (runs cm "\"a\nb\",1\nc,2\n" [.getNext [str, num], .getNext [str, num]]).map (fun o => (o.ret, o.valid, o.line)) =
      [(.row (some [.str (bs "a\nb"), .int 1]), true, 2), (.row (some [.str (bs "c"), .int 2]), true, 3)] := by
  exact ⟨by decide +kernel, by decide +kernel⟩

open Demo in
/-- C52 with multiline: a NUL inside a quoted field that goes on in the next line.  The text in front of the NUL is an open
quote, so lines are appended - behind the NUL, where they are not seen: the quote is never closed and all the following rows
are lost.  The constructor and every call come back all the same (`C54_construction_multiline`, `C54_calls_multiline_partial`). -/
theorem C52_nul_in_quote_multiline :
    Parser.Created (ctx cm "\"a\x00b\nc\",1\nd,2\n") (start cm "\"a\x00b\nc\",1\nd,2\n") ∧
    (runs cm "\"a\x00b\nc\",1\nd,2\n" [.getNext [str, num]]).map (fun o => (o.ret, o.msg, o.eof)) =
      [(.row none, bs "f 3: unterminated quote", true)] := by
  exact ⟨createdM cm_wf _, by decide +kernel⟩

open Demo in
/-- C37, found while trying to remove the hypothesis on NUL: a NUL behind a doubled quote (or an escape) in a quoted field.  Removing the
doubled quote leaves its second byte between the end of the field and the NUL; when the next line was appended the search goes on at
this stale byte and takes it for the closing quote.  Here the row `"a""\0b` delivers `a"`, valid, and the line `c,1` is lost. -/
theorem C37_nul_behind_doubled_quote :
    Parser.Created (ctx cm "\"a\"\"\x00b\nc,1\nd,2") (start cm "\"a\"\"\x00b\nc,1\nd,2") ∧
    cm.InQuote (bs ",") (cutNul (bs "\"a\"\"\x00b\nc,1")) ∧
    (runs cm "\"a\"\"\x00b\nc,1\nd,2" [.getNext [str], .getNext [str, num]]).map (fun o => (o.ret, o.valid, o.line)) =
      [(.row (some [.str (bs "a\"")]), true, 2), (.row (some [.str (bs "d"), .int 2]), true, 3)] := by
  exact ⟨createdM cm_wf _, ⟨bs "a\"", by decide +kernel⟩, by decide +kernel⟩

/-- C52, with multiline: when the text of the next row is `a`, a NUL byte and more, `get_next` yields what a newly made
converter yields for `a` alone, and fails iff that one fails. -/
theorem C52_nul_ends_row_multiline {x : Ctx} {s : Parser} {rs : List Req} {k : Nat} (hx : x.MlOk) (h : Parser.ReachT x s) (hrs : rs ≠ [])
    (hk : x.RowTo s.line k) {a b : Bytes} (ha : NUL ∉ a) (hj : x.joined s.line k = a ++ NUL :: b) :
    (∀ vs, Parser.Yields x (Parser.getNext x rs s) vs ↔ Ssp.Yields x.cfg (s.fresh x rs a) vs) ∧
    ((∃ m, Parser.Fails x (Parser.getNext x rs s) m) ↔ ∀ vs, ¬ Ssp.Yields x.cfg (s.fresh x rs a) vs) := by
  have hcut : cutNul (x.joined s.line k) = a := by rw [hj, cutNul_of_split ha]
  have hopen : (decodeRow x.cfg x.delim (cutNul (x.joined s.line k))).2.isOpenQuote = false := by
    cases hd : (decodeRow x.cfg x.delim (cutNul (x.joined s.line k))).2 with
    | openQuote a => exact absurd (.inr ⟨a, hd⟩) hk.stops
    | _ => rfl
  obtain ⟨t, hp, _, _⟩ := h.sim hx.live
  have h1 := Parser.fresh_closed hx.ok hp rs hopen
  have h2 := Parser.fresh_closed (l := a) hx.ok hp rs (by rw [cutNul_of_not_mem ha, ← hcut]; exact hopen)
  rw [cutNul_of_not_mem ha, ← hcut] at h2
  have hy : ∀ vs, Ssp.Yields x.cfg (s.fresh x rs (x.joined s.line k)) vs ↔ Ssp.Yields x.cfg (s.fresh x rs a) vs := by
    intro vs
    rw [hcut] at h1 h2
    generalize rowOf rs t.rd.sel t.rd.ncols (splitRes x.cfg x.delim a) = r at h1 h2
    cases r with
    | ok ws => exact ⟨fun h => yields_unique h1 h ▸ h2, fun h => yields_unique h2 h ▸ h1⟩
    | error m => exact ⟨fun h => absurd h (fails_not_yields h1), fun h => absurd h (fails_not_yields h2)⟩
  obtain ⟨g1, g2⟩ := C37_row hx h hrs hk
  exact ⟨fun vs => (g1 vs).trans (hy vs), g2.trans (forall_congr' fun vs => not_congr (hy vs))⟩

namespace Demo

/-- the same as `mlOk`, for inputs with NUL bytes -/
theorem mlOk_nul {d : String} (hn : ((List.range (lines (bs d)).length).all fun n => (List.range (lines (bs d)).length).all fun k =>
    !(decide (n + k < (lines (bs d)).length)) || !(decodeRow cm (bs ",") (cutNul ((ctx cm d).joined n k))).2.isOpenQuote ||
      !((ctx cm d).joined n k).contains NUL) = true) : (ctx cm d).MlOk := by
  refine ⟨ok cm cm_wf d, rfl, .inl ⟨by show bs "," ≠ []; decide, ?_⟩, (by decide : LF ∉ cm.escape), fun n k hi hq => ?_⟩
  · intro y hy
    have : some (44 : Byte) = some y := hy ▸ (by decide : some (44 : Byte) = (bs ",").head?)
    cases this; exact (by decide : cm.quote ≠ some 44 ∧ (44 : Byte) ∉ cm.escape)
  · have hi' : n + k < (lines (bs d)).length := hi
    have h1 := List.all_eq_true.mp (List.all_eq_true.mp hn n (List.mem_range.mpr (by omega))) k (List.mem_range.mpr (by omega))
    obtain ⟨a, ha⟩ := hq
    have ha' : (decodeRow cm (bs ",") (cutNul ((ctx cm d).joined n k))).2 = .openQuote a := ha
    have h2 : (End.openQuote a).isOpenQuote = true := rfl
    rw [ha'] at h1
    intro hm
    have h3 : ((ctx cm d).joined n k).contains NUL = true := by simpa using hm
    rw [h3, decide_eq_true hi'] at h1
    exact absurd h1 (by simp [h2])

/-- rows with NUL bytes: in an unquoted field, behind an escaped end of line, behind a quoted field of two lines -/
def nuls : String := "a\x00x,1\nb\\\n\x00,2\n\"c\nd\",3\x00z\n"

end Demo

open Demo in
/-- the hypotheses of `C37_row` and the others about multiline are met by an input with NUL bytes -/
theorem Demo.nuls_ok : (ctx cm nuls).MlOk ∧ NUL ∈ (ctx cm nuls).src.data := ⟨mlOk_nul (by decide +kernel), by decide +kernel⟩

open Demo in
/-- those of `C52_nul_ends_row_multiline`: the first row -/
example : Parser.ReachT (ctx cm nuls) (start cm nuls) ∧ (ctx cm nuls).RowTo (start cm nuls).line 0 ∧
    (ctx cm nuls).joined (start cm nuls).line 0 = bs "a" ++ NUL :: bs "x,1" := by
  have hl : (start cm nuls).line = 0 := by decide +kernel
  refine ⟨(createdM cm_wf nuls).reachT, ?_, by rw [hl]; decide +kernel⟩
  rw [hl]
  refine ⟨by decide +kernel, ?_, by intro i hi; omega⟩
  rintro (h | ⟨a, h⟩)
  · revert h; unfold Cfg.Escaped; decide +kernel
  · have : (decodeRow (ctx cm nuls).cfg (ctx cm nuls).delim (cutNul ((ctx cm nuls).joined 0 0))).2 = .eol := by decide +kernel
    rw [this] at h; cases h

open Demo in
/-- the rows of `nuls` at work: one column "a", then the text before the NUL of a row of two lines, then a whole row -/
example : (runs cm nuls [.getNext [str], .getNext [str], .getNext [str, num]]).map (fun o => o.ret) =
    [.row (some [.str (bs "a")]), .row (some [.str (bs "b\n")]), .row (some [.str (bs "c\nd"), .int 3])] := by
  decide +kernel

end Ssp
