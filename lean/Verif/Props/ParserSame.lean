import Verif.Props.ParserMultiline
import Verif.Proofs.LockstepRun
/-!
# Inputs that are read alike (C26, C27, C31, C53)

Two parsers with the same setup and inputs with the same lines: every sequence of calls gives the same observations.
`AlikeObs` of `Verif.Spec.Parser` says what "the same" is: results, `valid()`, `error_msg()`, `eof()`, `line()`; error texts
start with the name of the input.  With multiline `or_else` is called behind complete rows only
(`Parser.Covered`; see `C41`, `C54`).
-/
namespace Ssp
open Spec

variable {x y : Ctx}

theorem All2.mono {α β : Type} {R R' : α → β → Prop} (h : ∀ a b, R a b → R' a b) : ∀ {as : List α} {bs : List β},
    All2 R as bs → All2 R' as bs
  | _, _, .nil => .nil
  | _, _, .cons h1 h2 => .cons (h _ _ h1) (h2.mono h)

theorem agree {P : Prop} (hc : Alike x y) (hx : x.Ok) (hy : y.Ok) (ex : x.src.Exists) (ey : y.src.Exists)
    (ht : TodoRel x.cfg.multiline (rawLines x.src.data) (rawLines y.src.data)) (hp : P → x.src.data = y.src.data)
    {s s' : Parser} (h : Parser.Created x s) (h' : Parser.Created y s') {ops : List Op} (hT : Parser.Covered x ops s) :
    RunsAlike x y (AlikeObsP x y P) s s' ops := by
  have lx := hx.liveT
  have ly := hy.liveT
  have h0 := created_together (P := P) hc lx.good ly.good ex ey ht hp h h'
  obtain ⟨os, os', s1, s1', h1, h2, _, h3⟩ := run_together hc lx ly (Op.Tame.same hc hy ht) ops hT.run h0
  exact ⟨observe_together hc h0 (.inl rfl), os, os', s1, s1', h1, h2, h3⟩

theorem RunsAlike.mono {R R' : Obs → Obs → Prop} {s s' : Parser} {ops : List Op} (h : RunsAlike x y R s s' ops)
    (hr : ∀ o o', R o o' → R' o o') : RunsAlike x y R' s s' ops := by
  obtain ⟨h0, os, os', s1, s1', h1, h2, h3⟩ := h
  exact ⟨hr _ _ h0, os, os', s1, s1', h1, h2, h3.mono hr⟩

/-! ## C26 -/

theorem todo_of_lines : ∀ {a b : List Bytes}, a.map chop = b.map chop → TodoRel false a b
  | [], [], _ => .nil
  | [], _ :: _, h => by simp at h
  | _ :: _, [], h => by simp at h
  | l :: a, l' :: b, h => by
    simp only [List.map_cons, List.cons.injEq] at h
    exact .cons h.1 (by simp) (todo_of_lines h.2)

/-- C26: without multiline, what a parser does depends on the lines of the input only, not on how they are terminated. -/
theorem C26_same_lines (hc : Alike x y) (hx : x.Ok) (hy : y.Ok) (hm : x.cfg.multiline = false) (ex : x.src.Exists) (ey : y.src.Exists)
    (hl : lines x.src.data = lines y.src.data) {s s' : Parser} (h : Parser.Created x s) (h' : Parser.Created y s') (ops : List Op) :
    RunsAlike x y (AlikeObs x y) s s' ops := by
  have hm' : y.cfg.multiline = false := by rw [hc.cfg]; exact hm
  refine (agree (P := False) hc hx hy ex ey ?_ False.elim h h'
    (.single hm)).mono fun _ _ h => h.toAlikeObs
  rw [hm]; exact todo_of_lines hl

theorem rawLines_snoc {l : Bytes} (h : LF ∉ l) (r : Bytes) : rawLines (l ++ LF :: r) = (l ++ [LF]) :: rawLines r := by
  induction l with
  | nil => simp [rawLines]
  | cons b l ih =>
    have hb : b ≠ LF := fun e => h (by simp [e])
    rw [List.cons_append, rawLines, if_neg hb, ih (fun h' => h (by simp [h']))]
    rfl

theorem chop_lf {l : Bytes} (h : l.getLast? ≠ some CR) : chop (l ++ [LF]) = l := by
  have : eolOf (l ++ [LF]) = [LF] := by simp [eolOf, h]
  simp [chop, this]

theorem chop_crlf (l : Bytes) : chop (l ++ [CR, LF]) = l := by
  have h : l ++ [CR, LF] = (l ++ [CR]) ++ [LF] := by simp
  have : eolOf (l ++ [CR, LF]) = [CR, LF] := by rw [h]; simp [eolOf]
  simp [chop, this]

theorem lines_terminated : ∀ {ls : List (Bytes × Bool)}, (∀ l ∈ ls, LF ∉ l.1 ∧ l.1.getLast? ≠ some CR) →
    lines (terminated ls) = ls.map (·.1)
  | [], _ => rfl
  | (l, b) :: ls, h => by
    have h0 := h (l, b) (by simp)
    have ih := lines_terminated (ls := ls) fun l h' => h l (by simp [h'])
    unfold terminated lines at *
    cases b with
    | false =>
      have := rawLines_snoc h0.1 (terminated ls)
      simp only [List.flatMap_cons, if_neg (Bool.false_ne_true), List.append_assoc, List.singleton_append, List.map_cons]
      unfold terminated at this
      rw [this, List.map_cons, ih, chop_lf h0.2]
    | true =>
      have hcr : LF ∉ l ++ [CR] := by simp only [List.mem_append]; rintro (h | h); exact h0.1 h; exact absurd h (by decide)
      have := rawLines_snoc hcr (terminated ls)
      simp only [List.flatMap_cons, if_true, List.append_assoc, List.map_cons]
      unfold terminated at this
      simp only [List.append_assoc, List.cons_append, List.nil_append] at this ⊢
      rw [this, List.map_cons, ih, chop_crlf]

/-- C26: the same lines (which contain no LF and do not end with CR), each terminated by LF or by CRLF in one input, and by
LF or by CRLF in the other. -/
theorem C26_terminators (hc : Alike x y) (hx : x.Ok) (hy : y.Ok) (hm : x.cfg.multiline = false) (ex : x.src.Exists) (ey : y.src.Exists)
    {ls ls' : List (Bytes × Bool)} (hs : ls.map (·.1) = ls'.map (·.1)) (hl : ∀ l ∈ ls, LF ∉ l.1 ∧ l.1.getLast? ≠ some CR)
    (dx : x.src.data = terminated ls) (dy : y.src.data = terminated ls')
    {s s' : Parser} (h : Parser.Created x s) (h' : Parser.Created y s') (ops : List Op) :
    RunsAlike x y (AlikeObs x y) s s' ops := by
  refine C26_same_lines hc hx hy hm ex ey ?_ h h' ops
  have hl' : ∀ l ∈ ls', LF ∉ l.1 ∧ l.1.getLast? ≠ some CR := by
    intro l h
    have : l.1 ∈ ls.map (·.1) := by rw [hs]; exact List.mem_map_of_mem h
    obtain ⟨k, hk, e⟩ := List.mem_map.mp this
    rw [← e]; exact hl k hk
  rw [dx, dy, lines_terminated hl, lines_terminated hl', hs]

/-! ## C27 -/

theorem rawLines_tail {e : Bytes} (he : rawLines e = [e]) : ∀ (d : Bytes), d ≠ [] → d.getLast? ≠ some LF →
    ∃ i l, rawLines d = i ++ [l] ∧ rawLines (d ++ e) = i ++ [l ++ e] ∧ l ≠ [] ∧ l.getLast? = d.getLast?
  | [], h, _ => absurd rfl h
  | [b], _, h => by
    have hb : b ≠ LF := fun e => h (by simp [e])
    refine ⟨[], [b], by simp [rawLines, hb], ?_, by simp, rfl⟩
    show rawLines (b :: e) = [b :: e]
    unfold rawLines
    rw [if_neg hb, he]
  | b :: c :: d, _, h => by
    obtain ⟨i, l, h1, h2, h3, h4⟩ := rawLines_tail he (c :: d) (by simp) (by simpa using h)
    have hl : (b :: c :: d).getLast? = (c :: d).getLast? := by simp [List.getLast?_cons_cons]
    by_cases hb : b = LF
    · refine ⟨[b] :: i, l, ?_, ?_, h3, h4.trans hl.symm⟩
      · unfold rawLines; rw [if_pos hb, h1]; rfl
      · rw [List.cons_append]; unfold rawLines; rw [if_pos hb, h2]; rfl
    · cases i with
      | nil =>
        refine ⟨[], b :: l, ?_, ?_, by simp, ?_⟩
        · unfold rawLines; rw [if_neg hb, h1]; rfl
        · rw [List.cons_append]; unfold rawLines; rw [if_neg hb, h2]; rfl
        · rw [hl, ← h4]
          cases l with
          | nil => exact absurd rfl h3
          | cons z l => simp [List.getLast?_cons_cons]
      | cons k i =>
        refine ⟨(b :: k) :: i, l, ?_, ?_, h3, h4.trans hl.symm⟩
        · unfold rawLines; rw [if_neg hb, h1]; rfl
        · rw [List.cons_append]; unfold rawLines; rw [if_neg hb, h2]; rfl

theorem todo_init {ml : Bool} {l l' : Bytes} (h : chop l = chop l') (h' : chop l ≠ []) : ∀ (i : List Bytes),
    TodoRel ml (i ++ [l]) (i ++ [l'])
  | [] => .last h h'
  | _ :: i => .cons rfl (fun _ => rfl) (todo_init h h' i)

theorem chop_open {l : Bytes} (h : l.getLast? ≠ some LF) : chop l = l := by
  have : eolOf l = [] := by simp [eolOf, h]
  simp [chop, this]

/-- C27: a terminator behind the last line, or none, makes no difference: `y` is `x` with LF or CRLF appended, where the last
line of `x` is not terminated already (and, for LF, does not end with CR, which then would belong to the terminator). -/
theorem C27_final_newline_partial (hc : Alike x y) (hx : x.Ok) (hy : y.Ok)
    (hd : x.src.data ≠ []) (hl : x.src.data.getLast? ≠ some LF)
    (hy' : y.src.data = x.src.data ++ [LF] ∧ x.src.data.getLast? ≠ some CR ∨ y.src.data = x.src.data ++ [CR, LF])
    {s s' : Parser} (h : Parser.Created x s) (h' : Parser.Created y s') {ops : List Op} (hT : Parser.Covered x ops s) :
    RunsAlike x y (AlikeObs x y) s s' ops := by
  have ex : x.src.Exists := by
    cases hs : x.src with
    | file u d => trivial
    | buf p n => rintro rfl; rw [hs] at hd; exact hd rfl
  have hdy : y.src.data ≠ [] := by rcases hy' with ⟨e, _⟩ | e <;> rw [e] <;> simp
  have ey : y.src.Exists := by
    cases hs : y.src with
    | file u d => trivial
    | buf p n => rintro rfl; rw [hs] at hdy; exact hdy rfl
  refine (agree (P := False) hc hx hy ex ey ?_ False.elim h h' hT).mono fun _ _ h => h.toAlikeObs
  rcases hy' with ⟨e, hcr⟩ | e
  · obtain ⟨i, l, h1, h2, h3, h4⟩ := rawLines_tail (e := [LF]) (by decide) x.src.data hd hl
    rw [e, h1, h2]
    refine todo_init ?_ ?_ i
    · rw [chop_open (by rw [h4]; exact hl), chop_lf (by rw [h4]; exact hcr)]
    · rw [chop_open (by rw [h4]; exact hl)]; exact h3
  · obtain ⟨i, l, h1, h2, h3, h4⟩ := rawLines_tail (e := [CR, LF]) (by decide) x.src.data hd hl
    rw [e, h1, h2]
    refine todo_init ?_ ?_ i
    · rw [chop_open (by rw [h4]; exact hl), chop_crlf]
    · rw [chop_open (by rw [h4]; exact hl)]; exact h3

/-! ## C31, C53 -/

/-- C31: a parser of a file (read with `getline` or with the portable reader) and a parser of a buffer with the same
contents - or any two such inputs - agree on everything, and on `position()` until the end of the input was found. -/
theorem C31_file_and_buffer_partial (hc : Alike x y) (hx : x.Ok) (hy : y.Ok) (ex : x.src.Exists) (ey : y.src.Exists)
    (hd : x.src.data = y.src.data)
    {s s' : Parser} (h : Parser.Created x s) (h' : Parser.Created y s') {ops : List Op} (hT : Parser.Covered x ops s) :
    RunsAlike x y (fun o o' => AlikeObs x y o o' ∧
      ((o.line < (lines x.src.data).length ∨ (x.cfg.multiline = false ∧ o.line ≤ (lines x.src.data).length)) →
        o.position = o'.position)) s s' ops := by
  refine (agree (P := True) hc hx hy ex ey (by rw [hd]; exact .refl _) (fun _ => hd) h h' hT).mono
    fun o o' h => ⟨h.toAlikeObs, fun hl => h.position trivial (.inr hl)⟩

/-- C53: two runs of the same program on the same input, with different contents of freshly allocated memory (and with
different growth of the buffers of `getline`): every observation is the same. -/
theorem C53_uninitialised_memory_partial (e : Env) (hx : x.Ok) (ex : x.src.Exists)
    {s s' : Parser} (h : Parser.Created x s) (h' : Parser.Created { x with env := e } s') {ops : List Op}
    (hT : Parser.Covered x ops s) :
    ∃ os s1 s1', Parser.run x ops s = some (os, s1) ∧ Parser.run { x with env := e } ops s' = some (os, s1') ∧
      Parser.observe x .unit s = Parser.observe { x with env := e } .unit s' := by
  have hc : Alike x { x with env := e } := ⟨rfl, rfl, rfl⟩
  have hst : ∀ {m m' : Bytes}, AlikeText x { x with env := e } m m' → m = m' := by
    rintro m m' (h | ⟨t, _, h1, h2⟩)
    · exact h
    · rw [h1, h2]
  have hob : ∀ o o', AlikeObsP x { x with env := e } True o o' → o = o' := by
    intro o o' h
    have h1 : o.ret = o'.ret := by
      rcases h.ret with h | ⟨m, m', h1, h2, h3⟩
      · exact h
      · rw [h1, h2, hst h3]
    have h2 := h.valid; have h3 := hst h.msg; have h4 := h.eof; have h5 := h.line
    have h6 := h.position trivial (.inl rfl)
    cases o; cases o'
    simp only at h1 h2 h3 h4 h5 h6
    subst h1 h2 h3 h4 h5 h6
    rfl
  obtain ⟨h0, os, os', s1, s1', h1, h2, h3⟩ := agree (P := True) hc hx (y := { x with env := e }) ⟨hx.wf, hx.delim, hx.delim0, hx.fine⟩
    ex ex (.refl _) (fun _ => rfl) h h' hT
  have : os = os' := by
    clear h1 h2
    induction h3 with
    | nil => rfl
    | cons h _ ih => rw [hob _ _ h, ih]
  subst this
  exact ⟨os, s1, s1', h1, h2, hob _ _ h0⟩

/-! ## Examples -/

namespace Demo

/-- a parser of a file, with another name and other uninitialised memory -/
def fctx (c : Cfg) (d : String) : Ctx :=
  { cfg := c, env := ⟨fun n _ => UInt8.ofNat n, fun _ => 7⟩, src := .file true (bs d), delim := bs ",",
    fileName := bs "data.csv", wrapped := false }

def fstart (c : Cfg) (d : String) : Parser :=
  match Parser.newFile (fctx c d) {} with
  | .ok _ s => s
  | _ => {}

theorem fok {c : Cfg} (h : c.WF) (d : String) : (fctx c d).Ok :=
  ⟨h, (by decide : bs "," ≠ []), (by decide : NUL ∉ bs ","), by intro h; cases h⟩

theorem fcreated {c : Cfg} (h : c.WF) (d : String) : Parser.Created (fctx c d) (fstart c d) := by
  obtain ⟨s, hs⟩ := (construction_of (fok h d).liveT.good).1 true (bs d) rfl
  refine .file rfl ?_
  unfold fstart
  rw [hs]

theorem alike (c : Cfg) (d d' : String) : Alike (ctx c d) (fctx c d') := ⟨rfl, rfl, rfl⟩

end Demo

open Demo in
/-- C26, C31: a buffer with LF and a file with CRLF and no terminator at the end -/
example : RunsAlike (ctx cs "1,a\nx,b\n3,c\n") (fctx cs "1,a\r\nx,b\n3,c") (AlikeObs (ctx cs "1,a\nx,b\n3,c\n") (fctx cs "1,a\r\nx,b\n3,c"))
    (start cs "1,a\nx,b\n3,c\n") (fstart cs "1,a\r\nx,b\n3,c") [.getNext [num, str], .getNext [num, str], .getNext [num, str], .getNext [num]] :=
  C26_same_lines (alike _ _ _) (ok _ cs_wf _) (fok cs_wf _) rfl (by simp [ctx, Src.Exists]) trivial (by decide +kernel)
    (created cs_wf rfl _) (fcreated cs_wf _) _

open Demo in
/-- and these are the observations: the values of the first row, an error with the name of the input -/
example : (runs cs "1,a\nx,b\n3,c\n" [.getNext [num, str], .getNext [num, str]]).map (fun o => (o.ret, o.msg)) =
      [(.row (some [.int 1, .str (bs "a")]), []), (.row none, bs "f 2: invalid conversion for parameter at column 1: 'x'")] ∧
    ((Parser.run (fctx cs "1,a\r\nx,b\n3,c") [.getNext [num, str], .getNext [num, str]] (fstart cs "1,a\r\nx,b\n3,c")).map
        (·.1.map fun o => (o.ret, o.msg))) =
      some [(.row (some [.int 1, .str (bs "a")]), []),
        (.row none, bs "data.csv 2: invalid conversion for parameter at column 1: 'x'")] := by decide +kernel

open Demo in
/-- C27, with multiline -/
example : RunsAlike (ctx cm "1,\"a\nb\"\n2,c") (fctx cm "1,\"a\nb\"\n2,c\r\n") (AlikeObs (ctx cm "1,\"a\nb\"\n2,c") (fctx cm "1,\"a\nb\"\n2,c\r\n"))
    (start cm "1,\"a\nb\"\n2,c") (fstart cm "1,\"a\nb\"\n2,c\r\n") [.getNext [num, str], .getNext [num, str]] :=
  C27_final_newline_partial (alike _ _ _) (ok _ cm_wf _) (fok cm_wf _) (by decide +kernel) (by decide +kernel)
    (.inr (by decide +kernel)) (createdM cm_wf _) (fcreated cm_wf _)
    (.noOrElse (by simp))

open Demo in
/-- C31: the positions of a file and of a buffer differ once the end of the input was found and `get_next` is called again. -/
theorem C31_position_after_end :
    Parser.Created (ctx cs "1\n2\n") (start cs "1\n2\n") ∧ Parser.Created (fctx cs "1\n2\n") (fstart cs "1\n2\n") ∧
    (Parser.run (ctx cs "1\n2\n") [.getNext [num], .getNext [num], .ignoreNext, .ignoreNext] (start cs "1\n2\n")).map
      (·.1.map (·.position)) = some [2, 4, 4, 4] ∧
    (Parser.run (fctx cs "1\n2\n") [.getNext [num], .getNext [num], .ignoreNext, .ignoreNext] (fstart cs "1\n2\n")).map
      (·.1.map (·.position)) = some [2, 4, 3, 2] :=
  ⟨created cs_wf rfl _, fcreated cs_wf _, by decide +kernel, by decide +kernel⟩

end Ssp
