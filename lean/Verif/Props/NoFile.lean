import Verif.Props.ParserNull
/-!
# A parser of a file that could not be opened (C76)

In contrast to `C49`, here every call is covered: also composites that are made although `eof()` is true.
-/
namespace Ssp
open Spec
namespace NoFile
open Parser

/-- A call on a parser: one of `Op`, or a composite without a look at `eof()` before it. -/
inductive Call where
  | op (o : Op)
  | links (a : Alt) (ls : List Link)

/-- what a call gave back -/
inductive Out where
  | ret (r : Ret)
  | links (l : List LinkOut)

def Call.exec (x : Ctx) : Call → M Parser Out
  | .op o => do
    let r ← o.exec x
    pure (.ret r)
  | .links a ls => do
    let l ← tryLinks x a ls
    pure (.links l)

/-- What is seen after a call: what it gave back (`none`: an exception), `valid()`, `error_msg()`, `eof()`, `line()`, `position()`. -/
structure Seen where
  out : Option Out
  valid : Bool
  msg : Bytes
  eof : Bool
  line : Nat
  position : Nat

def see (x : Ctx) (o : Option Out) (s : Parser) : Seen :=
  { out := o, valid := s.valid x.cfg, msg := s.err.msg, eof := s.eof, line := s.line, position := s.position }

/-- The calls one after the other; `none`: undefined behaviour. -/
def run (x : Ctx) : List Call → Parser → Option (List Seen × Parser)
  | [], s => some ([], s)
  | c :: cs, s =>
    match c.exec x s with
    | .ok r s' => (run x cs s').map fun p => (see x (some r) s' :: p.1, p.2)
    | .exc _ s' => (run x cs s').map fun p => (see x none s' :: p.1, p.2)
    | .ub => none
    | .nofuel => none

/-- every `or_else` asks for at least one column -/
def Call.Asks : Call → Prop
  | .op _ => True
  | .links _ ls => ∀ b, Link.orElse b ∈ ls → b.reqs ≠ []

/-- no `or_else` is made behind the end of the file -/
def Call.NoOrElse : Call → Prop
  | .op _ => True
  | .links _ ls => ∀ b, Link.orElse b ∉ ls

/-- What a call on a parser without a file gives back: no row from `get_next` and from no alternative of a composite (whose
callbacks are not called), no line from `ignore_next`, an empty raw header, and as header one empty name. -/
def Nothing : Call → Option Out → Prop
  | .op (.getNext _), o => o = some (.ret (.row none))
  | .op .ignoreNext, o => o = some (.ret (.flag false))
  | .op .header, o => o = some (.ret (.names [[]]))
  | .op .rawHeader, o => o = some (.ret (.names [[]]))
  | .op (.fieldExists f), o => o = some (.ret (.flag (f == [])))
  | .op (.useFields _), o => o = some (.ret .unit)
  | .op (.chain _ _), o => o = some (.ret (.opts []))
  | .links _ ls, o => ∃ l, o = some (.links l) ∧ l.length = ls.length + 1 ∧ ∀ y ∈ l, y = .opt none false ∨ ∃ m, y = .err (some m)

/-- the calls behind which `valid()` is false: those that read -/
def Call.Reads : Call → Prop
  | .op (.getNext _) => True
  | .links _ _ => True
  | _ => False

/-- a converter that was never given a line -/
structure Blank (sl : Slot) : Prop where
  size : sl.size = 0
  spl : sl.conv.spl = {}
  map : sl.conv.mappings = [] ∨ sl.conv.ncols ≠ 0

structure St (s : Parser) : Prop where
  eof : s.eof = true
  raw : s.rawHeader = []
  header : s.header = [] ∨ s.header = [[]]
  cur : Blank s.rd.cur
  next : Blank s.rd.next
  curr : s.rd.curr = 0
  chars : s.rd.charsRead = 0

/-- neither converter has an error -/
def Quiet (x : Ctx) (s : Parser) : Prop := s.rd.cur.conv.err.valid x.cfg.mode = true ∧ s.rd.next.conv.err.valid x.cfg.mode = true

variable {x : Ctx} {s : Parser}

theorem St.err (h : St s) (e : ErrSt) : St { s with err := e } := ⟨h.eof, h.raw, h.header, h.cur, h.next, h.curr, h.chars⟩

theorem St.weak (h : St s) : NullSt { s with rd := {} } := ⟨h.eof, rfl, h.raw, h.header⟩

theorem readNext_none (hs : x.src = .buf none 0) {r : Reader} (hc : Blank r.next) (h0 : r.curr = 0) (hr : r.charsRead = 0) :
    Reader.readNext x r = .ok false { r with
      next := { r.next with conv := { r.next.conv with err := r.next.conv.err.clear x.cfg.mode } }
      lineNumber := r.lineNumber + 1 } := by
  have hb : Reader.bound x = 2 := by unfold Reader.bound; rw [hs]; rfl
  obtain ⟨cur, next, helper, hsz, fpos, tick, curr, crlf, ln, cr, nls⟩ := r
  simp only at h0 hr
  subst h0 hr
  obtain ⟨h1, h2, -⟩ := hc
  obtain ⟨⟨spl, err, map, nc⟩, size⟩ := next
  simp only at h1 h2
  subst h1 h2
  unfold Reader.readNext
  rw [hb]
  have hcl : Reader.onNext (Conv.clearError x.cfg) = (M.modify fun r : Reader =>
      { r with next := { r.next with conv := { r.next.conv with err := r.next.conv.err.clear x.cfg.mode } } }) := rfl
  rw [hcl, M.modify_bind]
  unfold Reader.readNextLoop
  simp only [M.modify_bind, M.get_bind, gt_iff_lt, Nat.lt_irrefl, if_false, M.pure_bind']
  rw [M.bind_of_ok (s' := _) (a := none)]
  · rfl
  · unfold Reader.getLineNext Io.getLine
    rw [hs]
    rfl

theorem readLine_none (hs : x.src = .buf none 0) (h : St s) :
    ∃ t, Parser.readLine x s = .ok () t ∧ St t ∧ t.err = s.err ∧ (Quiet x s → Quiet x t) ∧ t.rd.cur = s.rd.cur := by
  unfold Parser.readLine
  have h0 : Parser.onRd (Reader.readNext x) s = .ok false { s with rd := { s.rd with
      next := { s.rd.next with conv := { s.rd.next.conv with err := s.rd.next.conv.err.clear x.cfg.mode } }
      lineNumber := s.rd.lineNumber + 1 } } := by
    unfold Parser.onRd
    simp only [readNext_none hs h.next h.curr h.chars]
  rw [M.bind_of_ok h0]
  refine ⟨_, rfl, ⟨rfl, h.raw, h.header, h.cur, ⟨h.next.size, h.next.spl, h.next.map⟩, h.curr, h.chars⟩, rfl, fun q => ⟨q.1, ?_⟩, rfl⟩
  exact ErrSt.valid_clear _ _

theorem ignoreNext_none (hs : x.src = .buf none 0) (h : St s) :
    ∃ t, Parser.ignoreNext x s = .ok false t ∧ St t ∧ t.err = s.err ∧ (Quiet x s → Quiet x t) := by
  unfold Parser.ignoreNext Parser.onRd
  simp only [readNext_none hs h.next h.curr h.chars]
  refine ⟨_, rfl, ⟨h.eof, h.raw, h.header, h.cur, ⟨h.next.size, h.next.spl, h.next.map⟩, h.curr, h.chars⟩, rfl, fun q => ⟨q.1, ?_⟩⟩
  exact ErrSt.valid_clear _ _

theorem handleError_none (hm : x.cfg.mode ≠ .throw) (m : Bytes) :
    Parser.handleError x.cfg m s = .ok () { s with err := s.err.set x.cfg.mode m } := by
  unfold Parser.handleError
  cases hc : x.cfg.mode with
  | throw => exact absurd hc hm
  | string => rfl
  | bool => rfl

theorem msg_ne (a : Bytes) {b : Bytes} (h : b ≠ []) : a ++ b ≠ [] := fun e => h (List.append_eq_nil_iff.mp e).2

/-- the text of `get_next` behind the end -/
def eofMsg (x : Ctx) : Bytes := x.fileName ++ bs ": read on end of file"

theorem getNext_none (hs : x.src = .buf none 0) (hm : x.cfg.mode ≠ .throw) (h : St s) (rs : List Req) :
    ∃ t, Parser.getNext x rs s = .ok (Conv.defaults rs) t ∧ St t ∧ t.valid x.cfg = false ∧
      (Quiet x s → Quiet x t ∧ (x.cfg.mode = .string → t.err.msg = eofMsg x)) := by
  have h1 : Parser.parseRowIf x s = .ok () s := by unfold Parser.parseRowIf; rw [if_pos h.eof]
  have h2 : Parser.onRd Reader.update s = .ok () { s with rd := { s.rd with cur := s.rd.next, next := s.rd.cur } } := rfl
  have h' : St { s with rd := { s.rd with cur := s.rd.next, next := s.rd.cur } } :=
    ⟨h.eof, h.raw, h.header, h.next, h.cur, h.curr, h.chars⟩
  unfold Parser.getNext
  rw [M.bind_of_ok h1, M.bind_of_ok h2]
  simp only [M.get_bind]
  by_cases hv : Conv.valid x.cfg s.rd.next.conv = true
  · rw [hv]
    simp only [Bool.not_true, Bool.false_eq_true, if_false]
    rw [show (Parser.clearError x.cfg) = (M.modify fun s => { s with err := s.err.clear x.cfg.mode }) from rfl]
    simp only [M.modify_bind, h.eof, if_true]
    rw [M.bind_of_ok (handleError_none hm _)]
    refine ⟨_, rfl, ?_, ?_, fun q => ⟨⟨q.2, q.1⟩, fun hst => ?_⟩⟩
    · exact ⟨rfl, h.raw, h.header, h.next, h.cur, h.curr, h.chars⟩
    · exact ErrSt.valid_set hm (msg_ne _ (by decide)) _
    · simp only [hst]; rfl
  · simp only [hv, Bool.not_false, if_true]
    unfold Parser.handleErrorInvalidConversion
    rw [M.modify_bind]
    obtain ⟨t, ht, hst, he, -, -⟩ := readLine_none hs (h'.err (s.err.set x.cfg.mode (x.fileName ++ bs " " ++ dec s.rd.lineNumber ++
      bs ": " ++ s.rd.next.conv.err.msg)))
    rw [M.bind_of_ok ht]
    refine ⟨t, rfl, hst, ?_, fun q => absurd q.2 hv⟩
    unfold Parser.valid
    rw [he]
    refine ErrSt.valid_set hm ?_ _
    intro e
    have := (List.append_eq_nil_iff.mp (List.append_eq_nil_iff.mp e).1).2
    exact absurd this (by decide)

theorem convertImpl_none (c : Cfg) (hm : c.mode ≠ .throw) {cv : Conv} (hs : cv.spl = {}) (h : cv.mappings = [] ∨ cv.ncols ≠ 0)
    {rs : List Req} (hr : rs ≠ []) :
    ∃ e, Conv.convertCached c rs cv = .ok (Conv.defaults rs) { cv with err := e } ∧ e.valid c.mode = false := by
  have herr : ∀ (m : Bytes) (cv' : Conv), m ≠ [] → (Conv.handleError c m >>= fun _ => pure (Conv.defaults rs)) cv' =
      .ok (Conv.defaults rs) { cv' with err := cv'.err.set c.mode m } := by
    intro m cv' _
    unfold Conv.handleError
    cases hc : c.mode with
    | throw => exact absurd hc hm
    | string => rfl
    | bool => rfl
  have hlen : 0 < rs.length := List.length_pos_iff.mpr hr
  obtain ⟨spl, err, map, nc⟩ := cv
  simp only at hs h
  subst hs
  unfold Conv.convertCached
  simp only [M.get_bind]
  unfold Conv.convertImpl
  rw [show Conv.clearError c = (M.modify fun s => { s with err := s.err.clear c.mode }) from rfl]
  simp only [M.modify_bind, M.get_bind]
  rw [show ({} : Spl).err.valid c.mode = true by cases c.mode <;> rfl]
  simp only [Bool.not_true, Bool.false_eq_true, if_false]
  have key : ∀ m : Bytes, m ≠ [] → ∃ e, (Conv.handleError c m >>= fun _ => pure (Conv.defaults rs))
      { err := err.clear c.mode, mappings := map, ncols := nc } = .ok (Conv.defaults rs) { err := e, mappings := map, ncols := nc } ∧ e.valid c.mode = false :=
    fun m hne => ⟨_, herr m _ hne, ErrSt.valid_set hm hne _⟩
  have ne1 : ∀ a b, Conv.msgNumberOfColumns a b ≠ [] := by
    intro a b e
    unfold Conv.msgNumberOfColumns at e
    simp only [List.append_eq_nil_iff] at e
    exact absurd e.1.1.1 (by decide)
  have ne2 : ∀ a b, Conv.msgIncompatibleMapping a b ≠ [] := by
    intro a b e
    unfold Conv.msgIncompatibleMapping at e
    simp only [List.append_eq_nil_iff] at e
    exact absurd e.1.1.1 (by decide)
  by_cases hmp : map = []
  · rw [if_pos hmp, if_pos (by simp; omega)]
    exact key _ (ne1 _ _)
  · rw [if_neg hmp]
    by_cases hl : rs.length ≠ map.length
    · rw [if_pos hl]; exact key _ (ne2 _ _)
    · rw [if_neg hl, if_pos (by
        rcases h with h | h
        · exact absurd h hmp
        · simpa using fun e => h e.symm)]
      exact key _ (ne1 _ _)

theorem orElse_none (hm : x.cfg.mode ≠ .throw) (h : St s) (hv : s.valid x.cfg = false) {a : Alt} (ha : a.reqs ≠ []) :
    ∃ t, Parser.orElse x a s = .ok (none, false) t ∧ St t ∧ t.valid x.cfg = false := by
  unfold Parser.orElse
  simp only [M.get_bind, hv, Bool.false_eq_true, if_false]
  unfold Parser.trySame
  rw [show (Parser.clearError x.cfg) = (M.modify fun s => { s with err := s.err.clear x.cfg.mode }) from rfl]
  obtain ⟨e, he, hev⟩ := convertImpl_none x.cfg hm h.cur.spl h.cur.map ha
  have h1 : Parser.onCur (Conv.convertCached x.cfg a.reqs) { s with err := s.err.clear x.cfg.mode } =
      .ok (Conv.defaults a.reqs) { s with
        err := s.err.clear x.cfg.mode
        rd := { s.rd with cur := { s.rd.cur with conv := { s.rd.cur.conv with err := e } } } } := by
    unfold Parser.onCur
    simp only [he]
  have h2 : (Parser.clearError x.cfg >>= fun _ => Parser.onCur (Conv.convertCached x.cfg a.reqs) >>= fun v => M.get >>= fun s =>
      (if Conv.valid x.cfg s.rd.cur.conv then pure () else handleErrorInvalidConversion x) >>= fun _ => pure v) s =
      .ok (Conv.defaults a.reqs) { s with
        err := (s.err.clear x.cfg.mode).set x.cfg.mode (x.fileName ++ bs " " ++ dec s.rd.lineNumber ++ bs ": " ++ e.msg)
        rd := { s.rd with cur := { s.rd.cur with conv := { s.rd.cur.conv with err := e } } } } := by
    rw [show (Parser.clearError x.cfg) = (M.modify fun s => { s with err := s.err.clear x.cfg.mode }) from rfl]
    rw [M.modify_bind, M.bind_of_ok h1]
    simp only [M.get_bind]
    rw [if_neg (by unfold Conv.valid; rw [hev]; simp)]
    rfl
  refine ⟨{ s with
        err := (s.err.clear x.cfg.mode).set x.cfg.mode (x.fileName ++ bs " " ++ dec s.rd.lineNumber ++ bs ": " ++ e.msg)
        rd := { s.rd with cur := { s.rd.cur with conv := { s.rd.cur.conv with err := e } } } }, ?_, ?_, ?_⟩
  · exact (M.bind_of_ok h2).trans (by
      simp only [M.get_bind]
      rw [if_neg]
      · rfl
      · unfold Parser.valid
        simp only
        rw [ErrSt.valid_set hm (by
          intro e'
          have := (List.append_eq_nil_iff.mp (List.append_eq_nil_iff.mp e').1).2
          exact absurd this (by decide))]
        simp)
  · exact ⟨h.eof, h.raw, h.header, ⟨h.cur.size, h.cur.spl, h.cur.map⟩, h.next, h.curr, h.chars⟩
  · refine ErrSt.valid_set hm ?_ _
    intro e'
    have := (List.append_eq_nil_iff.mp (List.append_eq_nil_iff.mp e').1).2
    exact absurd this (by decide)

theorem links_none (hm : x.cfg.mode ≠ .throw) : ∀ (ls : List Link) {s : Parser}, St s → s.valid x.cfg = false →
    (∀ b, Link.orElse b ∈ ls → b.reqs ≠ []) →
    ∃ l t, Parser.links x ls s = .ok l t ∧ St t ∧ t.valid x.cfg = false ∧ l.length = ls.length ∧
      (∀ y ∈ l, y = .opt none false ∨ ∃ m, y = .err (some m)) ∧ ((∀ b, Link.orElse b ∉ ls) → t = s)
  | [], s, h, hv, _ => ⟨[], s, rfl, h, hv, rfl, by simp, fun _ => rfl⟩
  | .orElse a :: ls, s, h, hv, hr => by
    obtain ⟨t, h1, h2, h3⟩ := orElse_none hm h hv (hr a (by simp))
    obtain ⟨l, u, h4, h5, h6, h7, h8, _⟩ := links_none hm ls h2 h3 fun b hb => hr b (by simp [hb])
    refine ⟨.opt none false :: l, u, ?_, h5, h6, by simp [h7], ?_, fun hn => absurd (by simp) (hn a)⟩
    · unfold Parser.links
      rw [M.bind_of_ok h1, M.bind_of_ok h4]; rfl
    · intro y hy
      rcases List.mem_cons.mp hy with rfl | hy
      · exact .inl rfl
      · exact h8 y hy
  | .onError :: ls, s, h, hv, hr => by
    obtain ⟨l, u, h4, h5, h6, h7, h8, h9⟩ := links_none hm ls h hv fun b hb => hr b (by simp [hb])
    have h1 : Parser.onError x s = .ok (some s.err.msg) s := by
      unfold Parser.onError
      simp only [hv, Bool.false_eq_true, if_false]
    refine ⟨.err (some s.err.msg) :: l, u, ?_, h5, h6, by simp [h7], ?_, fun hn => h9 fun b hb => hn b (by simp [hb])⟩
    · unfold Parser.links
      rw [M.bind_of_ok h1, M.bind_of_ok h4]; rfl
    · intro y hy
      rcases List.mem_cons.mp hy with rfl | hy
      · exact .inr ⟨_, rfl⟩
      · exact h8 y hy

theorem strictSplit_none (hx : x.Setup) (h : St s) :
    ∃ sp, Parser.strictSplit x s = .ok (some sp) s ∧ ∀ t, Parser.columnsOf sp t = .ok [[]] t := by
  obtain ⟨sp, h1, h2⟩ := strictSplit_null hx h.weak
  refine ⟨sp, ?_, h2⟩
  revert h1
  unfold Parser.strictSplit
  simp only
  cases Spl.split (headerCfg x) x.delim { mem := s.rawHeader ++ [NUL] } with
  | ok a p =>
    by_cases hv : p.err.valid x.cfg.mode = true
    · simp only [hv, if_true, Res.ok.injEq, and_true]; exact id
    · simp only [hv]; intro h1; cases h1
  | exc e p => intro h1; cases h1
  | ub => intro h1; cases h1
  | nofuel => intro h1; cases h1

/-- the header is split, or not -/
theorem splitHeaderDataIf_none (hx : x.Setup) (h : St s) {p : Parser → Bool} (hp : p s = true → s.header = []) :
    Parser.splitHeaderDataIf x p s = .ok () (if p s then { s with header := [[]] } else s) := by
  unfold Parser.splitHeaderDataIf
  by_cases hps : p s = true
  · rw [if_pos hps, if_pos hps]
    obtain ⟨sp, h1, h2⟩ := strictSplit_none hx h
    unfold Parser.splitHeaderData
    rw [M.bind_of_ok h1]
    simp only
    rw [M.bind_of_ok (h2 s)]
    unfold Parser.addHeader
    simp only [M.get_bind, hp hps, List.not_mem_nil, if_false]
    unfold Parser.addHeader
    rw [M.modify_bind]
    simp [hp hps]
  · rw [if_neg hps, if_neg hps]

theorem St.split {s : Parser} (h : St s) {p : Parser → Bool} : St (if p s then { s with header := [[]] } else s) := by
  by_cases hps : p s = true
  · rw [if_pos hps]; exact ⟨h.eof, h.raw, .inr rfl, h.cur, h.next, h.curr, h.chars⟩
  · rw [if_neg hps]; exact h

theorem mapFields_none {s : Parser} (all : List Bytes) (fs : List Bytes) :
    (∃ m, Parser.mapFields x all fs s = (Parser.handleError x.cfg m >>= fun _ => pure none) s) ∨
    (∃ is, Parser.mapFields x all fs s = .ok (some is) s) := by
  induction fs with
  | nil => exact .inr ⟨[], rfl⟩
  | cons f fs ih =>
    unfold Parser.mapFields
    by_cases hc : all.count f ≠ 1
    · rw [if_pos hc]; exact .inl ⟨_, rfl⟩
    · rw [if_neg hc]
      simp only [M.get_bind]
      cases hi : s.headerIndex f with
      | none => exact .inl ⟨_, rfl⟩
      | some i =>
        simp only
        rcases ih with ⟨m, ih⟩ | ⟨is, ih⟩
        · refine .inl ⟨m, ?_⟩
          rw [M.bind_apply, ih]
          unfold Parser.handleError
          cases x.cfg.mode <;> rfl
        · exact .inr ⟨i :: is, by rw [M.bind_of_ok ih]; rfl⟩

theorem mapFields_header {all fs : List Bytes} {is : List Nat} (hne : fs ≠ []) (h : Parser.mapFields x all fs s = .ok (some is) s) :
    s.header ≠ [] := by
  intro hh
  cases fs with
  | nil => exact hne rfl
  | cons f fs =>
    unfold Parser.mapFields at h
    by_cases hc : all.count f ≠ 1
    · rw [if_pos hc] at h
      unfold Parser.handleError at h
      cases hm : x.cfg.mode <;> rw [hm] at h <;> cases h
    · rw [if_neg hc] at h
      simp only [M.get_bind] at h
      rw [show s.headerIndex f = none by unfold Parser.headerIndex; rw [hh]; rfl] at h
      simp only at h
      unfold Parser.handleError at h
      cases hm : x.cfg.mode <;> rw [hm] at h <;> cases h

theorem useFields_none (hx : x.Setup) (hs : x.src = .buf none 0) (hm : x.cfg.mode ≠ .throw) (h : St s) (fs : List Bytes) :
    ∃ t, Parser.useFields x fs s = .ok () t ∧ St t ∧ (Quiet x s → Quiet x t) := by
  unfold Parser.useFields
  rw [show (Parser.clearError x.cfg) = (M.modify fun s => { s with err := s.err.clear x.cfg.mode }) from rfl]
  rw [M.modify_bind]
  have h0 := h.err (s.err.clear x.cfg.mode)
  rw [M.bind_of_ok (splitHeaderDataIf_none hx h0 (by simp_all))]
  simp only [h.eof, Bool.not_true, Bool.and_false, Bool.false_eq_true, if_false, M.get_bind]
  rw [if_neg (by unfold Parser.valid; rw [ErrSt.valid_clear]; simp)]
  by_cases hf : fs = []
  · rw [if_pos hf, handleError_none hm]
    exact ⟨_, rfl, ⟨rfl, h.raw, h.header, h.cur, h.next, h.curr, h.chars⟩, id⟩
  · rw [if_neg hf]
    rcases mapFields_none (x := x) (s := { s with err := s.err.clear x.cfg.mode }) fs fs with ⟨m, e⟩ | ⟨is, e⟩
    · have : Parser.mapFields x fs fs { s with err := s.err.clear x.cfg.mode } =
          .ok none { s with err := (s.err.clear x.cfg.mode).set x.cfg.mode m } := by
        rw [e, M.bind_of_ok (handleError_none hm _)]; rfl
      rw [h.eof] at this
      rw [M.bind_of_ok this]
      exact ⟨_, rfl, ⟨rfl, h.raw, h.header, h.cur, h.next, h.curr, h.chars⟩, id⟩
    · have hne := mapFields_header hf e
      simp only [h.eof] at e hne
      rw [M.bind_of_ok e]
      simp only
      unfold Parser.setMapping
      rw [M.modify_bind, M.get_bind]
      have hl : s.header.length ≠ 0 := fun e => hne (List.length_eq_zero_iff.mp e)
      have h1 : St { s with
          err := s.err.clear x.cfg.mode
          rd := { s.rd with
            cur := { s.rd.cur with conv := { s.rd.cur.conv with mappings := is, ncols := s.header.length } }
            next := { s.rd.next with conv := { s.rd.next.conv with mappings := is, ncols := s.header.length } } } } :=
        ⟨h.eof, h.raw, h.header, ⟨h.cur.size, h.cur.spl, .inr hl⟩, ⟨h.next.size, h.next.spl, .inr hl⟩, h.curr, h.chars⟩
      split
      · obtain ⟨t, ht, hst, _, hq⟩ := ignoreNext_none hs h1
        rw [show s.eof = true from h.eof] at ht
        rw [M.bind_of_ok ht]
        exact ⟨t, rfl, hst, fun q => hq q⟩
      · exact ⟨_, rfl, ⟨rfl, h1.raw, h1.header, h1.cur, h1.next, h1.curr, h1.chars⟩, id⟩

/-- every call -/
theorem exec_none (hx : x.Setup) (hs : x.src = .buf none 0) (hm : x.cfg.mode ≠ .throw) (h : St s) {c : Call} (hc : c.Asks) :
    ∃ o t, c.exec x s = .ok o t ∧ St t ∧ Nothing c (some o) ∧ (c.Reads → t.valid x.cfg = false) ∧
      (c.NoOrElse → Quiet x s → Quiet x t ∧ (c.Reads → x.cfg.mode = .string → t.err.msg = eofMsg x)) := by
  cases c with
  | links a ls =>
    obtain ⟨t, h1, h2, h3, h4⟩ := getNext_none hs hm h a.reqs
    obtain ⟨l, u, h5, h6, h7, h8, h9, h10⟩ := links_none hm ls h2 h3 hc
    refine ⟨.links (.opt none false :: l), u, ?_, h6, ⟨_, rfl, by simp [h8], ?_⟩, fun _ => h7, fun hn q => ?_⟩
    · show (Parser.tryLinks x a ls >>= _) s = _
      unfold Parser.tryLinks Parser.tryNext
      rw [M.bind_apply, M.bind_apply, M.bind_of_ok h1]
      simp only [M.get_bind, h3, Bool.false_eq_true, if_false, M.pure_apply]
      rw [M.bind_of_ok h5]; rfl
    · intro y hy
      rcases List.mem_cons.mp hy with rfl | hy
      · exact .inl rfl
      · exact h9 y hy
    · rw [h10 hn]
      exact ⟨(h4 q).1, fun _ => (h4 q).2⟩
  | op o =>
    cases o with
    | getNext rs =>
      obtain ⟨t, h1, h2, h3, h4⟩ := getNext_none hs hm h rs
      refine ⟨.ret (.row none), t, ?_, h2, rfl, fun _ => h3, fun _ q => ⟨(h4 q).1, fun _ => (h4 q).2⟩⟩
      simp only [Call.exec, Op.exec, M.bind_apply, h1, M.pure_apply]
      simp [M.get, h3]
    | ignoreNext =>
      obtain ⟨t, h1, h2, h3, h4⟩ := ignoreNext_none hs h
      refine ⟨.ret (.flag false), t, ?_, h2, rfl, fun h => h.elim, fun _ q => ⟨h4 q, fun h => h.elim⟩⟩
      simp only [Call.exec, Op.exec, M.bind_apply, h1, M.pure_apply]
    | header =>
      have h0 := h.err (s.err.clear x.cfg.mode)
      obtain ⟨sp, h1, h2⟩ := strictSplit_none hx h0
      refine ⟨.ret (.names [[]]), _, ?_, h0, rfl, fun h => h.elim, fun _ q => ⟨q, fun h => h.elim⟩⟩
      simp only [Call.exec, Op.exec]
      unfold Parser.getHeader
      rw [show (Parser.clearError x.cfg) = (M.modify fun s => { s with err := s.err.clear x.cfg.mode }) from rfl]
      rw [M.bind_apply, M.bind_apply, M.modify_bind, M.bind_of_ok h1]
      simp only [h2, M.pure_apply]
    | rawHeader =>
      refine ⟨.ret (.names [[]]), s, ?_, h, rfl, fun h => h.elim, fun _ q => ⟨q, fun h => h.elim⟩⟩
      simp only [Call.exec, Op.exec, M.bind_apply, M.get, M.pure_apply, h.raw]
    | fieldExists f =>
      have h0 := h.err (s.err.clear x.cfg.mode)
      have h1 := splitHeaderDataIf_none (p := fun s => s.header.isEmpty) hx h0 (by simp)
      refine ⟨.ret (.flag (f == [])), _, ?_, h0.split (p := fun s => s.header.isEmpty), rfl, fun h => h.elim, fun _ q => ⟨?_, fun h => h.elim⟩⟩
      · simp only [Call.exec, Op.exec]
        unfold Parser.fieldExists
        rw [show (Parser.clearError x.cfg) = (M.modify fun s => { s with err := s.err.clear x.cfg.mode }) from rfl]
        rw [M.bind_apply, M.bind_apply, M.modify_bind, M.bind_of_ok h1]
        simp only [M.get_bind]
        rw [if_neg (by
          unfold Parser.valid
          have : (if s.header.isEmpty = true then { s with err := s.err.clear x.cfg.mode, header := [[]] }
            else { s with err := s.err.clear x.cfg.mode } : Parser).err = s.err.clear x.cfg.mode := by split <;> rfl
          rw [this, ErrSt.valid_clear]; simp)]
        have hh : (if s.header.isEmpty = true then { s with err := s.err.clear x.cfg.mode, header := [[]] }
            else { s with err := s.err.clear x.cfg.mode } : Parser).header = [[]] := by
          rcases h.header with e | e <;> simp [e]
        simp only [M.pure_apply, Parser.headerIndex, hh]
        cases f with
        | nil => rfl
        | cons b f =>
          rw [List.idxOf?_eq_none_iff.mpr (show b :: f ∉ [([] : Bytes)] by simp)]
          rfl
      · by_cases hps : s.header.isEmpty = true
        · simp only [hps, if_true]; exact q
        · simp only [hps]; exact q
    | useFields fs =>
      obtain ⟨t, h1, h2, h3⟩ := useFields_none hx hs hm h fs
      refine ⟨.ret .unit, t, ?_, h2, rfl, fun h => h.elim, fun _ q => ⟨h3 q, fun h => h.elim⟩⟩
      simp only [Call.exec, Op.exec, M.bind_apply, h1, M.pure_apply]
    | chain a as =>
      refine ⟨.ret (.opts []), s, ?_, h, rfl, fun h => h.elim, fun _ q => ⟨q, fun h => h.elim⟩⟩
      simp only [Call.exec, Op.exec, M.bind_apply, M.get, h.eof, if_true, M.pure_apply]

theorem created_none (hs : x.src = .buf none 0) (h : Parser.Created x s) : St s ∧ x.cfg.mode ≠ .throw ∧ Quiet x s := by
  obtain ⟨h1, h2, -⟩ := created_null hs h
  have hr := h1.rd
  refine ⟨⟨h1.eof, h1.raw, h1.header, ?_, ?_, ?_, ?_⟩, h2, ?_⟩
  · rw [hr]; exact ⟨rfl, rfl, .inl rfl⟩
  · rw [hr]; exact ⟨rfl, rfl, .inl rfl⟩
  · rw [hr]
  · rw [hr]
  · unfold Quiet
    rw [hr]
    cases x.cfg.mode <;> exact ⟨rfl, rfl⟩

/-- one pass over the calls -/
theorem run_none (hx : x.Setup) (hs : x.src = .buf none 0) (hm : x.cfg.mode ≠ .throw) : ∀ (cs : List Call) {s : Parser}, St s →
    (∀ c ∈ cs, c.Asks) → ∃ os s', run x cs s = some (os, s') ∧ St s' ∧ os.length = cs.length ∧
      (∀ c o, (c, o) ∈ cs.zip os → Nothing c o.out ∧ o.eof = true ∧ o.position = 0 ∧ (c.Reads → o.valid = false)) ∧
      ((∀ c ∈ cs, c.NoOrElse) → Quiet x s → ∀ c o, (c, o) ∈ cs.zip os → c.Reads → x.cfg.mode = .string → o.msg = eofMsg x)
  | [], s, h, _ => ⟨[], s, rfl, h, rfl, by simp, by simp⟩
  | c :: cs, s, h, ha => by
    obtain ⟨o, t, h1, h2, h3, h4, h5⟩ := exec_none hx hs hm h (ha c (by simp))
    obtain ⟨os, s', h6, h7, hl, h8, h9⟩ := run_none hx hs hm cs h2 fun c hc => ha c (by simp [hc])
    refine ⟨see x (some o) t :: os, s', ?_, h7, by simp [hl], ?_, fun hn q => ?_⟩
    · unfold run
      simp only [h1, h6, Option.map_some]
    · intro c' o' hm'
      rcases List.mem_cons.mp hm' with e | hm'
      · cases e; exact ⟨h3, h2.eof, h2.chars, h4⟩
      · exact h8 _ _ hm'
    · obtain ⟨q', hmsg⟩ := h5 (hn c (by simp)) q
      intro c' o' hm'
      rcases List.mem_cons.mp hm' with e | hm'
      · cases e; exact hmsg
      · exact h9 (fun c hc => hn c (by simp [hc])) q' _ _ hm'

end NoFile

open NoFile in
/-- C76: constructing a parser of a file that cannot be opened throws with `throw_on_error`; otherwise it gives a parser at the
end of the input, with an error. -/
theorem C76_construction {x : Ctx} (hs : x.src = .buf none 0) :
    if x.cfg.mode = .throw then ∃ s, Parser.newFile x {} = .exc (x.fileName ++ bs ": could not be opened") s
    else ∃ s, Parser.newFile x {} = .ok () s ∧ s.eof = true ∧ s.valid x.cfg = false ∧
      (x.cfg.mode = .string → s.err.msg = x.fileName ++ bs ": could not be opened") := by
  unfold Parser.newFile Parser.handleError Parser.valid
  rw [hs]
  have hne : x.fileName ++ bs ": could not be opened" ≠ [] := msg_ne _ (by decide)
  cases hm : x.cfg.mode with
  | throw => exact ⟨_, rfl⟩
  | string => exact ⟨_, rfl, rfl, ErrSt.valid_set (m := .string) (by simp) hne _, fun _ => rfl⟩
  | bool => exact ⟨_, rfl, rfl, ErrSt.valid_set (m := .bool) (by simp) hne _, fun h => by cases h⟩

/-- C76: every sequence of calls on a parser of a file that could not be opened is defined, throws nothing and delivers nothing: `eof()` stays true,
`position()` stays 0, `get_next` and every alternative of a composite are errors, `ignore_next` finds no line.  (`line()` does not
stay 0, see `C76_line`; `or_else` always has a type.) -/
theorem C76_missing_file_partial {x : Ctx} (hx : x.Setup) (hs : x.src = .buf none 0) {s : Parser} (h : Parser.Created x s)
    (cs : List NoFile.Call) (ha : ∀ c ∈ cs, c.Asks) :
    ∃ os s', NoFile.run x cs s = some (os, s') ∧ os.length = cs.length ∧ ∀ c o, (c, o) ∈ cs.zip os →
      NoFile.Nothing c o.out ∧ o.eof = true ∧ o.position = 0 ∧ (c.Reads → o.valid = false) := by
  obtain ⟨h1, h2, _⟩ := NoFile.created_none hs h
  obtain ⟨os, s', h3, _, hl, h4, _⟩ := NoFile.run_none hx hs h2 cs h1 ha
  exact ⟨os, s', h3, hl, h4⟩

/-- C76: as long as no `or_else` is made behind the end of the file, the text of every failing call is "read on end of file".
(Not so behind one, see `C76_text_after_or_else`.) -/
theorem C76_missing_file_text_partial {x : Ctx} (hx : x.Setup) (hs : x.src = .buf none 0) (hm : x.cfg.mode = .string) {s : Parser}
    (h : Parser.Created x s) (cs : List NoFile.Call) (ha : ∀ c ∈ cs, c.NoOrElse) :
    ∃ os s', NoFile.run x cs s = some (os, s') ∧ os.length = cs.length ∧
      ∀ c o, (c, o) ∈ cs.zip os → c.Reads → o.msg = x.fileName ++ bs ": read on end of file" := by
  obtain ⟨h1, h2, q⟩ := NoFile.created_none hs h
  have hA : ∀ c ∈ cs, c.Asks := by
    intro c hc
    have := ha c hc
    cases c with
    | op o => trivial
    | links a ls => exact fun b hb => absurd hb (this b)
  obtain ⟨os, s', h3, _, hl, _, h4⟩ := NoFile.run_none hx hs h2 cs h1 hA
  exact ⟨os, s', h3, hl, fun c o hco hr => h4 ha q c o hco hr hm⟩

namespace Demo
open NoFile Parser

/-- what a `try_next` for two numbers, then two `or_else` and an `on_error` are -/
def missingLinks : Call := .links { reqs := [num, num] } [.orElse { reqs := [num] }, .onError, .orElse { reqs := [str], fn := some fun _ => some true }]

/-- the calls of the example -/
def missingCalls : List Call :=
  [.op (.getNext [num]), missingLinks, .op .ignoreNext, .op (.fieldExists []), .op (.useFields [[]]), missingLinks, .op .header,
    .op (.getNext [num]), .op (.chain { reqs := [num] } [])]

example : (nctx cs 0).Setup ∧ (nctx cs 0).src = .buf none 0 ∧ (∀ c ∈ missingCalls, c.Asks) ∧
    ∃ s, Parser.Created (nctx cs 0) s ∧ (NoFile.run (nctx cs 0) missingCalls s).isSome := by
  refine ⟨⟨cs_wf, by decide, by decide⟩, rfl, ?_, { err := { msg := bs "f: could not be opened" }, eof := true }, ?_, by decide +kernel⟩
  · intro c hc
    simp only [missingCalls, missingLinks, List.mem_cons, List.not_mem_nil, or_false] at hc
    rcases hc with rfl | rfl | rfl | rfl | rfl | rfl | rfl | rfl | rfl <;> first
      | trivial
      | (intro b hb
         simp only [List.mem_cons, Link.orElse.injEq, reduceCtorEq, List.not_mem_nil, or_false, false_or] at hb
         rcases hb with rfl | rfl <;> simp)
  · exact .missing rfl (by decide +kernel)

/-- C76 fails for `line()`: with no line read it is 1 after two calls of `ignore_next`, which both return false: every call at
the end of the input counts a line. -/
theorem C76_line : Parser.newFile (nctx cs 0) {} = .ok () { err := { msg := bs "f: could not be opened" }, eof := true } ∧
    (NoFile.run (nctx cs 0) [.op .ignoreNext, .op .ignoreNext, .op .ignoreNext] { err := { msg := bs "f: could not be opened" }, eof := true }).map
      (fun p => p.1.map Seen.line) = some [0, 1, 2] := by
  decide +kernel

/-- Behind an `or_else` that was made at the end of the file `get_next` gives another text, with the error of the `or_else`. -/
theorem C76_text_after_or_else :
    (NoFile.run (nctx cs 0) [.links { reqs := [num] } [.orElse { reqs := [num] }], .op (.getNext [num]), .op (.getNext [num])]
      { err := { msg := bs "f: could not be opened" }, eof := true }).map (fun p => p.1.map Seen.msg) =
      some [bs "f 0: invalid number of columns, expected: 1, got: 0", bs "f: read on end of file",
        bs "f 0: invalid number of columns, expected: 1, got: 0"] := by
  decide +kernel

end Demo

end Ssp
