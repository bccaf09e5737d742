import Verif.Proofs.MachineRead
/-!
# The model of the parser simulates the row machine
-/
namespace Ssp
open Spec

/-! ## Simulation of one call -/

/-- The outcome `r` is what the outcome `r'` of the machine says (`ub` and `nofuel` of the machine say nothing). -/
def RSim {σ τ α β : Type} (Q E : σ → τ → Prop) (V : α → β → Prop) (r : Res σ α) (r' : Res τ β) : Prop :=
  match r' with
  | .ok b t => ∃ a s, r = .ok a s ∧ V a b ∧ Q s t
  | .exc e t => ∃ s, r = .exc e s ∧ E s t
  | .ub => True
  | .nofuel => True

namespace RSim
variable {σ τ α β α' β' : Type} {Q E Q' E' : σ → τ → Prop} {V : α → β → Prop} {V' : α' → β' → Prop}

theorem bind {m : M σ α} {m' : M τ β} {f : α → M σ α'} {f' : β → M τ β'} {s : σ} {t : τ}
    (h : RSim Q E V (m s) (m' t))
    (hf : ∀ a s' b t', V a b → Q s' t' → RSim Q' E V' (f a s') (f' b t')) :
    RSim Q' E V' ((m >>= f) s) ((m' >>= f') t) := by
  unfold RSim at h
  cases hm : m' t with
  | ok b t' =>
    rw [hm] at h
    obtain ⟨a, s', h1, h2, h3⟩ := h
    rw [M.bind_of_ok h1, M.bind_of_ok hm]
    exact hf _ _ _ _ h2 h3
  | exc e t' =>
    rw [hm] at h
    obtain ⟨s', h1, h2⟩ := h
    rw [M.bind_of_exc h1, M.bind_of_exc hm]
    exact ⟨_, rfl, h2⟩
  | ub => simp [M.bind_apply, hm, RSim]
  | nofuel => simp [M.bind_apply, hm, RSim]

theorem ok {a : α} {b : β} {s : σ} {t : τ} (hv : V a b) (hq : Q s t) : RSim Q E V (.ok a s) (.ok b t) :=
  ⟨a, s, rfl, hv, hq⟩

theorem exc {e : Bytes} {s : σ} {t : τ} (he : E s t) : RSim Q E V (.exc e s) (.exc e t) := ⟨s, rfl, he⟩

theorem mono {r : Res σ α} {r' : Res τ β} (h : RSim Q E V r r') (hq : ∀ s t, Q s t → Q' s t) (he : ∀ s t, E s t → E' s t) :
    RSim Q' E' V r r' := by
  unfold RSim at *
  cases r' with
  | ok b t => obtain ⟨a, s, h1, h2, h3⟩ := h; exact ⟨a, s, h1, h2, hq _ _ h3⟩
  | exc e t => obtain ⟨s, h1, h2⟩ := h; exact ⟨s, h1, he _ _ h2⟩
  | ub => trivial
  | nofuel => trivial

end RSim

/-! ## Reading ahead -/

theorem rawLines_length (t : Bytes) : (rawLines t).length ≤ t.length := by
  induction t with
  | nil => simp [rawLines]
  | cons b t ih =>
    unfold rawLines
    split
    · simpa using ih
    · cases h : rawLines t with
      | nil => simp
      | cons l ls => rw [h] at ih; simp at ih ⊢; omega

theorem RBase.todo_lt {x : Ctx} {s : Reader} {a : MRd} (h : RBase x s a) : a.todo.length < Reader.bound x := by
  have h1 := rawLines_length (x.src.unread s.curr s.fpos)
  rw [← h.todo] at h1
  have : (x.src.unread s.curr s.fpos).length ≤ x.src.data.length := by
    cases hx : x.src with
    | file u d => simp [Src.unread, Src.data]
    | buf p n => simp [Src.unread, Src.data]
  have hb : Reader.bound x = x.src.data.length + 2 := by
    unfold Reader.bound
    cases hx : x.src <;> rfl
  omega

/-- A splitter that is not in the middle of a row. -/
def Slot.Idle (c : Cfg) (sl : Slot) : Prop :=
  sl.conv.spl.resplitting = false ∧ (c.multiline = true → sl.conv.spl.unterminatedQuote = false)

/-- what the machine reports of reading a line ahead -/
def MRd.readR (x : Ctx) (a : MRd) : Bool × MRd :=
  MRd.readGo x.cfg.ignoreEmpty a.todo { a with next := { a.next with err := a.next.err.clear x.cfg.mode, cols := none } }

theorem MRd.readNext_eq (x : Ctx) (a : MRd) : MRd.readNext x a = .ok (a.readR x).1 (a.readR x).2 := rfl

theorem readNext_spec {x : Ctx} (hf : x.src.Fine) {s : Reader} {a : MRd} (hr : RBase x s a) :
    ∃ s', Reader.readNext x s = .ok (a.readR x).1 s' ∧ RBase x s' (a.readR x).2 ∧
      ((a.readR x).1 = true ∨ RLook s a → RLook s' (a.readR x).2) ∧ s'.cur = s.cur ∧
      (s.next.Idle x.cfg → s'.next.Idle x.cfg) ∧ ((a.readR x).1 = false → s'.nextLineSize = s.nextLineSize) ∧
      ((a.readR x).1 = true → s'.crlf = true → s'.nextLineSize + 2 ≤ s'.next.conv.spl.mem.length) := by
  generalize hs0 : ({ s with next := { s.next with conv := { s.next.conv with err := s.next.conv.err.clear x.cfg.mode } } } : Reader) = s0
  have h0 : RBase x s0 { a with next := { a.next with err := a.next.err.clear x.cfg.mode, cols := none } } := by
    rw [← hs0]
    refine { cur := hr.cur, next := ?_, selok := hr.selok, helper := hr.helper, todo := hr.todo, ln := hr.ln,
             done := hr.done, curr := hr.curr, chars := hr.chars }
    refine ⟨?_, hr.next.serr, hr.next.sel, hr.next.ncols, hr.next.sized, ?_⟩
    · show s.next.conv.err.clear _ = _; rw [hr.next.err]
    · intro cs h; cases h
  obtain ⟨s', h1, h2, h3, h4, h5, h6⟩ := readNextLoop_spec hf (Reader.bound x) s0 _ h0 rfl hr.todo_lt
  refine ⟨s', ?_, h2, ?_, ?_, ?_, ?_, h6⟩
  · unfold Reader.readNext
    have : Reader.onNext (Conv.clearError x.cfg) s = .ok () s0 := by rw [← hs0]; rfl
    rw [M.bind_of_ok this]; exact h1
  · intro h
    refine h3 (h.imp id fun h => ?_)
    rw [← hs0]
    exact ⟨h.look, h.lt, h.term, h.crlf⟩
  · rw [h4.cur, ← hs0]
  · intro h
    have := h4.conv
    refine ⟨?_, fun hm => ?_⟩
    · rw [this, ← hs0]; exact h.1
    · rw [this, ← hs0]; exact h.2 hm
  · intro h; rw [h5 h, ← hs0]

/-! ## Facts about reading ahead on the machine -/

theorem readGo_todo {ie : Bool} : ∀ (ls : List Bytes) (a : MRd), (MRd.readGo ie ls a).1 = false →
    (MRd.readGo ie ls a).2.todo = [] := by
  intro ls
  induction ls with
  | nil => intro a _; rfl
  | cons l ls ih =>
    intro a h
    unfold MRd.readGo at h ⊢
    split
    · rename_i hb; rw [if_pos hb] at h; exact ih _ h
    · rename_i hb; rw [if_neg hb] at h; cases h

theorem readGo_look {ie : Bool} : ∀ (ls : List Bytes) (a : MRd), (MRd.readGo ie ls a).1 = true →
    ∃ l ∈ ls, (MRd.readGo ie ls a).2.look = chop l := by
  intro ls
  induction ls with
  | nil => intro a h; cases h
  | cons l ls ih =>
    intro a h
    unfold MRd.readGo at h ⊢
    split
    · rename_i hb; rw [if_pos hb] at h
      obtain ⟨l', h1, h2⟩ := ih _ h
      exact ⟨l', List.mem_cons_of_mem _ h1, h2⟩
    · exact ⟨l, List.mem_cons_self, rfl⟩

theorem readGo_nil_of {ie : Bool} : ∀ (ls : List Bytes) (a : MRd), ls = [] → (MRd.readGo ie ls a).1 = false := by
  rintro _ a rfl; rfl

theorem RBase.todo_nul {x : Ctx} (hp : NUL ∉ x.src.data) {s : Reader} {a : MRd} (h : RBase x s a) : ∀ l ∈ a.todo, NUL ∉ l := by
  intro l hl hn
  apply hp
  rw [h.todo] at hl
  have : NUL ∈ (rawLines (x.src.unread s.curr s.fpos)).flatten := List.mem_flatten.mpr ⟨l, hl, hn⟩
  rw [rawLines_flatten] at this
  cases hx : x.src with
  | file u d => rw [hx] at this; exact List.mem_of_mem_drop this
  | buf p n => rw [hx] at this; exact List.mem_of_mem_drop this

theorem chop_sub {l : Bytes} {b : Byte} (h : b ∈ chop l) : b ∈ l := List.mem_of_mem_take h

/-! ## The parser -/

/-- the terminator of the text read ahead fits behind it -/
def Reader.Room (s : Reader) : Prop := s.crlf = true → s.nextLineSize + 2 ≤ s.next.conv.spl.mem.length

/-- between two calls -/
structure PRel (x : Ctx) (s : Parser) (t : Mach) : Prop where
  err : s.err = t.err
  header : s.header = t.header
  rawHeader : s.rawHeader = t.rawHeader
  eof : s.eof = t.eof
  base : RBase x s.rd t.rd
  eofd : t.eof = true → t.rd.todo = []
  look : t.eof = false → RLook s.rd t.rd
  idle : t.eof = false → s.rd.cur.Idle x.cfg ∧ s.rd.next.Idle x.cfg
  plain : t.eof = false → x.cfg.multiline = true → s.rd.Room ∨ t.rd.todo = []

/-- inside `get_next` -/
structure PMid (x : Ctx) (s : Parser) (t : Mach) : Prop where
  err : s.err = t.err
  header : s.header = t.header
  rawHeader : s.rawHeader = t.rawHeader
  eof : s.eof = t.eof
  base : RBase x s.rd t.rd
  eofd : t.eof = true → t.rd.todo = []
  idle : t.rd.todo = [] ∨ (s.rd.cur.Idle x.cfg ∧ s.rd.next.Idle x.cfg)

theorem PRel.mid {x : Ctx} {s : Parser} {t : Mach} (h : PRel x s t) : PMid x s t where
  err := h.err
  header := h.header
  rawHeader := h.rawHeader
  eof := h.eof
  base := h.base
  eofd := h.eofd
  idle := by
    cases he : t.eof with
    | true => exact .inl (h.eofd he)
    | false => exact .inr (h.idle he)

/-- `parse` follows the machine: what the rest of this file needs to know. -/
def ParseSim (x : Ctx) : Prop := ∀ (s : Reader) (a : MRd), RBase x s a → RLook s a → s.cur.Idle x.cfg → s.next.Idle x.cfg →
  (x.cfg.multiline = true → s.Room ∨ a.todo = []) →
  RSim (fun s' a' => RBase x s' a' ∧ (a'.todo = [] ∨ (s'.cur.Idle x.cfg ∧ s'.next.Idle x.cfg)))
    (fun s' a' => x.cfg.mode = .throw ∧ RBase x s' a' ∧ (a'.todo = [] ∨ (s'.cur.Idle x.cfg ∧ s'.next.Idle x.cfg)))
    (fun _ _ => True) (Reader.parse x s) (MRd.parse x a)

/-- what must hold of a context -/
structure Ctx.Good (x : Ctx) : Prop where
  fine : x.src.Fine
  parse : ParseSim x

section
variable {x : Ctx} {α β : Type}

theorem onRd_ok {s s' : Parser} {m : M Reader α} {a : α} {r : Reader} (h : m s.rd = .ok a r) (hs : s' = { s with rd := r }) :
    Parser.onRd m s = .ok a s' := by simp [Parser.onRd, h, hs]

theorem readLine_sim (hx : x.Good) {E : Parser → Mach → Prop} {s : Parser} {t : Mach} (h : PMid x s t) :
    RSim (PRel x) E (fun _ _ => True) (Parser.readLine x s) (Mach.readLine x t) := by
  obtain ⟨r, h1, h2, h3, h4, h5, _, h7⟩ := readNext_spec hx.fine h.base
  unfold Parser.readLine Mach.readLine
  rw [M.bind_of_ok (onRd_ok h1 rfl)]
  rw [M.bind_of_ok (show Mach.onRd (MRd.readNext x) t = .ok (t.rd.readR x).1 { t with rd := (t.rd.readR x).2 } from rfl)]
  refine .ok trivial ⟨h.err, h.header, h.rawHeader, rfl, h2, ?_, ?_, ?_, ?_⟩
  · intro he
    have he : (!(t.rd.readR x).1) = true := he
    refine readGo_todo _ _ ?_
    show (t.rd.readR x).1 = false
    simpa using he
  · intro he
    have he : (!(t.rd.readR x).1) = false := he
    refine h3 (.inl ?_)
    simpa using he
  · intro he
    rcases h.idle with hi | hi
    · have : (t.rd.readR x).1 = false := by unfold MRd.readR; exact readGo_nil_of _ _ hi
      have he : (!(t.rd.readR x).1) = false := he
      rw [this] at he; cases he
    · exact ⟨by show r.cur.Idle _; rw [h4]; exact hi.1, h5 hi.2⟩
  · intro he hm
    exact .inl (h7 (by simpa using he))

theorem ignoreNext_sim (hx : x.Good) {E : Parser → Mach → Prop} {s : Parser} {t : Mach} (h : PRel x s t) :
    RSim (PRel x) E (fun a b => a = b) (Parser.ignoreNext x s) (Mach.onRd (MRd.readNext x) t) := by
  obtain ⟨r, h1, h2, h3, h4, h5, _, h7⟩ := readNext_spec hx.fine h.base
  unfold Parser.ignoreNext
  rw [onRd_ok h1 rfl]
  rw [show Mach.onRd (MRd.readNext x) t = .ok _ { t with rd := (t.rd.readR x).2 } from rfl]
  refine .ok rfl ⟨h.err, h.header, h.rawHeader, h.eof, h2, ?_, ?_, ?_, ?_⟩
  · intro he
    refine readGo_todo _ _ (readGo_nil_of _ _ (h.eofd he))
  · intro he
    exact h3 (.inr (h.look he))
  · intro he
    have hi := h.idle he
    exact ⟨by show r.cur.Idle _; rw [h4]; exact hi.1, h5 hi.2⟩
  · intro he hm
    show r.Room ∨ (t.rd.readR x).2.todo = []
    cases hb : (t.rd.readR x).1 with
    | false => right; exact readGo_todo _ _ hb
    | true =>
      exact .inl (h7 hb)

theorem handleError_sim {Q : Parser → Mach → Prop} {E : Parser → Mach → Prop} {s : Parser} {t : Mach} (m : Bytes)
    (h : PRel x s t) (hq : ∀ s t, PRel x s t → Q s t) (he : ∀ s t, PRel x s t → E s t) :
    RSim Q E (fun _ _ => True) (Parser.handleError x.cfg m s) (Mach.handleError x.cfg m t) := by
  unfold Parser.handleError Mach.handleError
  cases hm : x.cfg.mode with
  | throw => exact .exc (he _ _ h)
  | _ => exact .ok trivial (hq _ _ { h with err := by show _ = _; simp only [h.err] })

theorem clearError_rel {s : Parser} {t : Mach} (h : PRel x s t) :
    PRel x { s with err := s.err.clear x.cfg.mode } { t with err := t.err.clear x.cfg.mode } :=
  { h with err := by show _ = _; simp only [h.err] }

theorem clearError_mid {s : Parser} {t : Mach} (h : PMid x s t) :
    PMid x { s with err := s.err.clear x.cfg.mode } { t with err := t.err.clear x.cfg.mode } :=
  { h with err := by show _ = _; simp only [h.err] }

theorem handleErrorInvalidConversion_mid {E : Parser → Mach → Prop} {s : Parser} {t : Mach} (h : PMid x s t) :
    RSim (PMid x) E (fun _ _ => True) (Parser.handleErrorInvalidConversion x s) (Mach.handleErrorInvalidConversion x t) := by
  refine .ok trivial { h with err := ?_ }
  show s.err.set _ _ = t.err.set _ _
  rw [h.err, h.base.ln, h.base.cur.err]

theorem handleErrorInvalidConversion_sim {E : Parser → Mach → Prop} {s : Parser} {t : Mach} (h : PRel x s t) :
    RSim (PRel x) E (fun _ _ => True) (Parser.handleErrorInvalidConversion x s) (Mach.handleErrorInvalidConversion x t) := by
  refine .ok trivial { h with err := ?_ }
  show s.err.set _ _ = t.err.set _ _
  rw [h.err, h.base.ln, h.base.cur.err]

theorem decorateRethrow_sim {Q : Parser → Mach → Prop} {V : α → β → Prop} {s : Parser} {t : Mach} (e : Bytes) (h : PRel x s t) :
    RSim Q (PRel x) V (Parser.decorateRethrow x e s) (Mach.decorateRethrow x e t) := by
  unfold Parser.decorateRethrow Mach.decorateRethrow
  have : s.line = t.line := by unfold Parser.line Mach.line; rw [h.base.ln]
  rw [this]
  exact .exc h

theorem tryCatch_sim {Q E E' : Parser → Mach → Prop} {V : α → β → Prop} {m : M Parser α} {m' : M Mach β}
    {k : Bytes → M Parser α} {k' : Bytes → M Mach β} {s : Parser} {t : Mach}
    (h : RSim Q E V (m s) (m' t)) (hk : ∀ e s' t', E s' t' → RSim Q E' V (k e s') (k' e t')) :
    RSim Q E' V (Parser.tryCatch m k s) (Mach.tryCatch m' k' t) := by
  unfold Parser.tryCatch Mach.tryCatch
  cases hm : m' t with
  | ok b t' => rw [hm] at h; obtain ⟨a, s', h1, h2, h3⟩ := h; rw [h1]; exact .ok h2 h3
  | exc e t' => rw [hm] at h; obtain ⟨s', h1, h2⟩ := h; rw [h1]; exact hk _ _ _ h2
  | ub => trivial
  | nofuel => trivial

theorem onRd_parse_sim (hx : x.Good) {s : Parser} {t : Mach} (h : PRel x s t) (he : t.eof = false) :
    RSim (PMid x) (fun s t => x.cfg.mode = .throw ∧ PMid x s t) (fun _ _ => True) (Parser.onRd (Reader.parse x) s)
      (Mach.onRd (MRd.parse x) t) := by
  have := hx.parse s.rd t.rd h.base (h.look he) (h.idle he).1 (h.idle he).2 (h.plain he)
  unfold Parser.onRd Mach.onRd
  cases hm : MRd.parse x t.rd with
  | ok b t' =>
    rw [hm] at this; obtain ⟨a, s', h1, h2, h3, h4⟩ := this; rw [h1]
    exact .ok trivial ⟨h.err, h.header, h.rawHeader, h.eof, h3, fun h => (by rw [he] at h; cases h), h4⟩
  | exc e t' =>
    rw [hm] at this; obtain ⟨s', h1, h0, h2, h3⟩ := this; rw [h1]
    exact .exc ⟨h0, h.err, h.header, h.rawHeader, h.eof, h2, fun h => (by rw [he] at h; cases h), h3⟩
  | ub => trivial
  | nofuel => trivial

theorem parseRowIf_sim (hx : x.Good) {s : Parser} {t : Mach} (h : PRel x s t) :
    RSim (PMid x) (PRel x) (fun _ _ => True) (Parser.parseRowIf x s) (Mach.parseRowIf x t) := by
  unfold Parser.parseRowIf Mach.parseRowIf
  rw [h.eof]
  cases he : t.eof with
  | true => exact .ok trivial h.mid
  | false =>
    simp only [Bool.false_eq_true, if_false]
    have hp := onRd_parse_sim hx h he
    unfold Parser.parseRow Mach.parseRow
    cases hm : x.cfg.mode with
    | throw =>
      refine tryCatch_sim hp fun e s' t' hq => ?_
      refine (readLine_sim hx hq.2).bind fun _ s' _ t' _ hq => ?_
      exact decorateRethrow_sim e hq
    | _ => exact hp.mono (fun _ _ h => h) (fun _ _ h => by rw [hm] at h; cases h.1)

/-- a value of the machine: `none` says nothing -/
def VSome (v : List Val) (o : Option (List Val)) : Prop := ∀ v', o = some v' → v = v'

/-- another error of the current converter -/
def Parser.setCurErr (s : Parser) (e : ErrSt) : Parser :=
  { s with rd := { s.rd with cur := { s.rd.cur with conv := { s.rd.cur.conv with err := e } } } }

def Mach.setCurErr (t : Mach) (e : ErrSt) : Mach := { t with rd := { t.rd with cur := { t.rd.cur with err := e } } }

theorem RBase.setCurErr {s : Parser} {t : Mach} (h : RBase x s.rd t.rd) (e : ErrSt) :
    RBase x (s.setCurErr e).rd (t.setCurErr e).rd where
  cur := ⟨rfl, h.cur.serr, h.cur.sel, h.cur.ncols, h.cur.sized, h.cur.cols⟩
  next := h.next
  selok := h.selok
  helper := h.helper
  todo := h.todo
  ln := h.ln
  done := h.done
  curr := h.curr
  chars := h.chars

theorem PMid.setCurErr {s : Parser} {t : Mach} (h : PMid x s t) (e : ErrSt) : PMid x (s.setCurErr e) (t.setCurErr e) where
  err := h.err
  header := h.header
  rawHeader := h.rawHeader
  eof := h.eof
  base := h.base.setCurErr e
  eofd := h.eofd
  idle := h.idle

theorem PRel.setCurErr {s : Parser} {t : Mach} (h : PRel x s t) (e : ErrSt) : PRel x (s.setCurErr e) (t.setCurErr e) where
  err := h.err
  header := h.header
  rawHeader := h.rawHeader
  eof := h.eof
  base := h.base.setCurErr e
  eofd := h.eofd
  look := fun he => ⟨(h.look he).look, (h.look he).lt, (h.look he).term, (h.look he).crlf⟩
  idle := h.idle
  plain := h.plain

theorem convertCur_sim {s : Parser} {t : Mach} (rs : List Req) (h : RBase x s.rd t.rd) {P : Parser → Mach → Prop}
    (hP : ∀ e, P (s.setCurErr e) (t.setCurErr e)) :
    RSim P (fun s t => x.cfg.mode = .throw ∧ P s t) VSome (Parser.onCur (Conv.convertCached x.cfg rs) s)
      (Mach.onRd (MRd.convertCur x.cfg rs) t) := by
  unfold Parser.onCur Mach.onRd MRd.convertCur Conv.convertCached
  simp only [M.get_bind]
  by_cases hv : t.rd.cur.serr.valid x.cfg.mode = false
  · rw [if_pos hv]
    have hv' : s.rd.cur.conv.spl.err.valid x.cfg.mode = false := by rw [h.cur.serr]; exact hv
    have hcv : Conv.convertImpl x.cfg rs s.rd.cur.conv.spl.data s.rd.cur.conv =
        .ok (Conv.defaults rs) { s.rd.cur.conv with err := match x.cfg.mode with
          | .string => { s.rd.cur.conv.err.clear x.cfg.mode with msg := s.rd.cur.conv.spl.err.msg }
          | .throw => s.rd.cur.conv.err.clear x.cfg.mode
          | .bool => { s.rd.cur.conv.err.clear x.cfg.mode with flag := true } } := by
      unfold Conv.convertImpl
      rw [M.bind_of_ok (show Conv.clearError x.cfg s.rd.cur.conv = .ok () { s.rd.cur.conv with err := s.rd.cur.conv.err.clear x.cfg.mode } from rfl)]
      simp only [M.get_bind, hv', Bool.not_false, if_true]
      simp only [Conv.handleErrorBadSplit, M.modify_bind, M.pure_apply]
      cases x.cfg.mode <;> rfl
    simp only [hcv]
    rw [h.cur.err, h.cur.serr]
    exact .ok (by intro v' h; cases h) (hP _)
  · rw [if_neg hv]
    cases hc : t.rd.cur.cols with
    | none => trivial
    | some cs =>
      obtain ⟨h1, h2⟩ := h.cur.cols cs hc
      have hv' : s.rd.cur.conv.spl.err.valid x.cfg.mode = true := by rw [h.cur.serr]; simpa using hv
      have := Conv.convertImpl_spec (c := x.cfg) (rs := rs) (s := s.rd.cur.conv) h1
        (by unfold Conv.SelOk; rw [h.cur.sel, h.cur.ncols]; exact h.selok) hv'
      rw [h2, show rowResult rs s.rd.cur.conv.mappings s.rd.cur.conv.ncols cs = rowResult rs t.rd.sel t.rd.ncols cs by
        rw [h.cur.sel, h.cur.ncols]] at this
      simp only
      cases hr : rowResult rs t.rd.sel t.rd.ncols cs with
      | ok vs =>
        rw [hr] at this
        simp only [Conv.ErrSet] at this
        simp only [this]
        rw [h.cur.err, ← hc]
        exact .ok (by intro v' h; cases h; rfl) (hP _)
      | error m =>
        rw [hr] at this
        simp only [Conv.ErrSet] at this
        by_cases hm : x.cfg.mode = .throw
        · rw [if_pos hm] at this
          simp only
          rw [if_pos hm, this]
          simp only
          rw [h.cur.err, ← hc]
          exact .exc ⟨hm, hP _⟩
        · rw [if_neg hm] at this
          obtain ⟨vs, this⟩ := this
          simp only
          rw [if_neg hm, this]
          simp only
          rw [h.cur.err, ← hc]
          exact .ok (by intro v' h; cases h) (hP _)

theorem convertRow_sim (hx : x.Good) {s : Parser} {t : Mach} (rs : List Req) (h : PMid x s t) :
    RSim (PRel x) (PRel x) VSome (Parser.convertRow x rs s) (Mach.convertRow x rs t) := by
  unfold Parser.convertRow Mach.convertRow
  have hc := convertCur_sim rs h.base (P := PMid x) h.setCurErr
  cases hm : x.cfg.mode with
  | throw =>
    simp only
    refine tryCatch_sim (E := PMid x) ?_ fun e s' t' hq => ?_
    · refine (hc.mono (fun _ _ h => h) (fun _ _ h => h.2)).bind fun v s' o t' hv hq => ?_
      refine (readLine_sim hx hq).bind fun _ s' _ t' _ hq => ?_
      exact .ok hv hq
    · refine (readLine_sim hx hq).bind fun _ s' _ t' _ hq => ?_
      exact decorateRethrow_sim e hq
  | _ =>
    simp only
    refine (hc.mono (fun _ _ h => h) (fun _ _ h => by rw [hm] at h; cases h.1)).bind fun v s' o t' hv hq => ?_
    simp only [M.get_bind]
    refine RSim.bind (Q := PMid x) (V := fun _ _ => True) ?_ fun _ s' _ t' _ hq => ?_
    · have : Conv.valid x.cfg s'.rd.cur.conv = t'.rd.cur.err.valid x.cfg.mode := by
        unfold Conv.valid; rw [hq.base.cur.err]
      rw [hm] at this
      rw [this]
      split
      · exact .ok trivial hq
      · exact handleErrorInvalidConversion_mid hq
    · refine (readLine_sim hx hq).bind fun _ s' _ t' _ hq => ?_
      exact .ok hv hq

theorem update_mid {s : Parser} {t : Mach} (h : PMid x s t) :
    PMid x { s with rd := { s.rd with cur := s.rd.next, next := s.rd.cur } } { t with rd := { t.rd with cur := t.rd.next, next := t.rd.cur } } where
  err := h.err
  header := h.header
  rawHeader := h.rawHeader
  eof := h.eof
  base :=
    { cur := h.base.next, next := h.base.cur, selok := h.base.selok, helper := h.base.helper, todo := h.base.todo,
      ln := h.base.ln, done := h.base.done, curr := h.base.curr, chars := h.base.chars }
  eofd := h.eofd
  idle := h.idle.imp id fun h => ⟨h.2, h.1⟩

theorem getNext_sim (hx : x.Good) {s : Parser} {t : Mach} (rs : List Req) (h : PRel x s t) :
    RSim (PRel x) (PRel x) VSome (Parser.getNext x rs s) (Mach.getNext x rs t) := by
  unfold Parser.getNext Mach.getNext
  refine (parseRowIf_sim hx h).bind fun _ s _ t _ h => ?_
  refine RSim.bind (Q := PMid x) (V := fun _ _ => True) (.ok trivial (update_mid h)) fun _ s _ t _ h => ?_
  simp only [M.get_bind]
  have : Conv.valid x.cfg s.rd.cur.conv = t.rd.cur.err.valid x.cfg.mode := by
    unfold Conv.valid; rw [h.base.cur.err]
  rw [this]
  split
  · refine (handleErrorInvalidConversion_mid h).bind fun _ s _ t _ h => ?_
    refine (readLine_sim hx h).bind fun _ s _ t _ h => ?_
    exact .ok (by intro v' h; cases h; rfl) h
  · have h' := clearError_mid h
    simp only [Parser.clearError, Mach.clearError, M.modify_bind]
    by_cases he : t.eof = true
    · rw [if_pos he, if_pos (h.eof.trans he)]
      have hr : PRel x { s with err := s.err.clear x.cfg.mode } { t with err := t.err.clear x.cfg.mode } :=
        ⟨h'.err, h'.header, h'.rawHeader, h'.eof, h'.base, h'.eofd, fun h => (by rw [he] at h; cases h),
          fun h => (by rw [he] at h; cases h), fun h => (by rw [he] at h; cases h)⟩
      refine (handleError_sim _ hr (fun _ _ h => h) (fun _ _ h => h)).bind fun _ s _ t _ h => ?_
      exact .ok (by intro v' h; cases h; rfl) h
    · rw [if_neg he, if_neg (by rw [h.eof]; exact he)]
      exact convertRow_sim hx rs h'

/-! ## Header -/

theorem strictSplit_sim {s : Parser} {t : Mach} (h : PRel x s t) :
    RSim (PRel x) (PRel x) (fun a b => a = b) (Parser.strictSplit x s) (Mach.strictSplit x t) := by
  unfold Parser.strictSplit Mach.strictSplit
  rw [h.rawHeader]
  cases Spl.split (Parser.headerCfg x) x.delim { mem := t.rawHeader ++ [NUL] } with
  | ok _ sp =>
    simp only
    split
    · exact .ok rfl h
    · exact .ok rfl { h with rawHeader := rfl, err := by show _ = _; simp only [h.err] }
  | exc e sp => exact .exc h
  | ub => trivial
  | nofuel => trivial

theorem columnsOf_sim {s : Parser} {t : Mach} (sp : Spl) (h : PRel x s t) :
    RSim (PRel x) (PRel x) (fun a b => a = b) (Parser.columnsOf sp s) (Mach.columnsOf sp t) := by
  unfold Parser.columnsOf Mach.columnsOf
  split
  · exact .ok rfl h
  · trivial

theorem getHeader_sim {s : Parser} {t : Mach} (h : PRel x s t) :
    RSim (PRel x) (PRel x) (fun a b => a = b) (Parser.getHeader x s) (Mach.getHeader x t) := by
  unfold Parser.getHeader Mach.getHeader
  simp only [Parser.clearError, Mach.clearError, M.modify_bind]
  refine (strictSplit_sim (clearError_rel h)).bind fun a s b t hv h => ?_
  subst hv
  cases a with
  | none => exact .ok rfl h
  | some sp => exact columnsOf_sim sp h

theorem addHeader_sim : ∀ (fs : List Bytes) {s : Parser} {t : Mach}, PRel x s t →
    RSim (PRel x) (PRel x) (fun _ _ => True) (Parser.addHeader x fs s) (Mach.addHeader x fs t) := by
  intro fs
  induction fs with
  | nil => intro s t h; exact .ok trivial h
  | cons f fs ih =>
    intro s t h
    unfold Parser.addHeader Mach.addHeader
    simp only [M.get_bind]
    rw [h.header]
    split
    · refine (handleError_sim _ h (fun _ _ h => h) (fun _ _ h => h)).bind fun _ s _ t _ h => ?_
      exact .ok trivial { h with header := rfl }
    · simp only [M.modify_bind]
      exact ih { h with header := by show s.header ++ _ = t.header ++ _; rw [h.header] }

theorem splitHeaderData_sim {s : Parser} {t : Mach} (h : PRel x s t) :
    RSim (PRel x) (PRel x) (fun _ _ => True) (Parser.splitHeaderData x s) (Mach.splitHeaderData x t) := by
  unfold Parser.splitHeaderData Mach.splitHeaderData
  refine (strictSplit_sim h).bind fun a s b t hv h => ?_
  subst hv
  cases a with
  | none => exact .ok trivial h
  | some sp =>
    refine (columnsOf_sim sp h).bind fun a s b t hv h => ?_
    subst hv
    exact addHeader_sim _ h

theorem splitHeaderDataIf_sim {s : Parser} {t : Mach} {p : Parser → Bool} {p' : Mach → Bool} (h : PRel x s t) (hp : p s = p' t) :
    RSim (PRel x) (PRel x) (fun _ _ => True) (Parser.splitHeaderDataIf x p s) (Mach.splitHeaderDataIf x p' t) := by
  unfold Parser.splitHeaderDataIf Mach.splitHeaderDataIf
  rw [hp]
  split
  · exact splitHeaderData_sim h
  · exact .ok trivial h

theorem PRel.valid {s : Parser} {t : Mach} (h : PRel x s t) : s.valid x.cfg = t.valid x.cfg := by
  unfold Parser.valid Mach.valid; rw [h.err]

theorem PRel.line {s : Parser} {t : Mach} (h : PRel x s t) : s.line = t.line := by
  unfold Parser.line Mach.line; rw [h.base.ln]

theorem fieldExists_sim {s : Parser} {t : Mach} (f : Bytes) (h : PRel x s t) :
    RSim (PRel x) (PRel x) (fun a b => a = b) (Parser.fieldExists x f s) (Mach.fieldExists x f t) := by
  unfold Parser.fieldExists Mach.fieldExists
  simp only [Parser.clearError, Mach.clearError, M.modify_bind]
  refine (splitHeaderDataIf_sim (clearError_rel h) (by show s.header.isEmpty = t.header.isEmpty; rw [h.header])).bind
    fun _ s _ t _ h => ?_
  simp only [M.get_bind]
  rw [h.valid]
  split
  · exact .ok rfl h
  · exact .ok (by unfold Parser.headerIndex Mach.headerIndex; rw [h.header]) h

theorem idxOf?_lt {f : Bytes} {l : List Bytes} {i : Nat} (h : l.idxOf? f = some i) : i < l.length := by
  have := List.of_findIdx?_eq_some h
  cases hl : l[i]? with
  | none => rw [hl] at this; cases this
  | some y => exact (List.getElem?_eq_some_iff.mp hl).1

theorem mapFields_sim (all : List Bytes) : ∀ (fs : List Bytes) {s : Parser} {t : Mach}, PRel x s t →
    RSim (fun s' t' => PRel x s' t' ∧ t'.header = t.header) (PRel x)
      (fun a b => a = b ∧ ∀ is, b = some is → ∀ i ∈ is, i < t.header.length)
      (Parser.mapFields x all fs s) (Mach.mapFields x all fs t) := by
  intro fs
  induction fs with
  | nil => intro s t h; exact .ok ⟨rfl, by intro is h; cases h; simp⟩ ⟨h, rfl⟩
  | cons f fs ih =>
    intro s t h
    unfold Parser.mapFields Mach.mapFields
    have herr : ∀ m, RSim (fun s' t' => PRel x s' t' ∧ t'.header = t.header) (PRel x)
        (fun (a b : Option (List Nat)) => a = b ∧ ∀ is, b = some is → ∀ i ∈ is, i < t.header.length)
        ((Parser.handleError x.cfg m >>= fun _ => pure none) s) ((Mach.handleError x.cfg m >>= fun _ => pure none) t) := by
      intro m
      unfold Parser.handleError Mach.handleError
      cases hm : x.cfg.mode with
      | throw => exact .exc h
      | _ => exact .ok ⟨rfl, by intro is h; cases h⟩ ⟨{ h with err := by show _ = _; simp only [h.err] }, rfl⟩
    by_cases hc : all.count f ≠ 1
    · rw [if_pos hc, if_pos hc]; exact herr _
    · rw [if_neg hc, if_neg hc]
      simp only [M.get_bind]
      have hi : s.headerIndex f = t.headerIndex f := by unfold Parser.headerIndex Mach.headerIndex; rw [h.header]
      rw [hi]
      cases hi : t.headerIndex f with
      | none => exact herr _
      | some i =>
        simp only
        refine (ih h).bind fun a s' b t' hv h' => ?_
        obtain ⟨rfl, hv⟩ := hv
        cases a with
        | none => exact .ok ⟨rfl, by intro is h; cases h⟩ h'
        | some is =>
          refine .ok ⟨rfl, ?_⟩ h'
          intro is' h j hj
          cases h
          rcases List.mem_cons.mp hj with rfl | hj
          · exact idxOf?_lt hi
          · exact hv _ rfl _ hj

theorem setMapping_rel {s : Parser} {t : Mach} (sel : List Nat) (h : PRel x s t) (hs : ∀ i ∈ sel, i < t.header.length) :
    ∃ s', Parser.setMapping sel s = .ok () s' ∧ PRel x s' { t with rd := { t.rd with sel := sel, ncols := t.header.length } } := by
  refine ⟨_, rfl, ?_⟩
  refine ⟨h.err, h.header, h.rawHeader, h.eof, ?_, h.eofd, ?_, h.idle, h.plain⟩
  · exact {
      cur := ⟨h.base.cur.err, h.base.cur.serr, rfl, congrArg _ h.header, h.base.cur.sized, h.base.cur.cols⟩
      next := ⟨h.base.next.err, h.base.next.serr, rfl, congrArg _ h.header, h.base.next.sized, h.base.next.cols⟩
      selok := hs
      helper := h.base.helper
      todo := h.base.todo
      ln := h.base.ln
      done := h.base.done
      curr := h.base.curr
      chars := h.base.chars }
  · intro he
    exact ⟨(h.look he).look, (h.look he).lt, (h.look he).term, (h.look he).crlf⟩

theorem useFields_sim (hx : x.Good) {s : Parser} {t : Mach} (fs : List Bytes) (h : PRel x s t) :
    RSim (PRel x) (PRel x) (fun _ _ => True) (Parser.useFields x fs s) (Mach.useFields x fs t) := by
  unfold Parser.useFields Mach.useFields
  simp only [Parser.clearError, Mach.clearError, M.modify_bind]
  refine (splitHeaderDataIf_sim (clearError_rel h) (by
    show (s.header.isEmpty && !s.eof) = (t.header.isEmpty && !t.eof); rw [h.header, h.eof])).bind fun _ s _ t _ h => ?_
  simp only [M.get_bind]
  rw [h.valid]
  split
  · exact .ok trivial h
  · split
    · exact handleError_sim _ h (fun _ _ h => h) (fun _ _ h => h)
    · refine (mapFields_sim fs fs h).bind fun a s' b t' hv h' => ?_
      obtain ⟨rfl, hv⟩ := hv
      cases a with
      | none => exact .ok trivial h'.1
      | some sel =>
        obtain ⟨s'', e1, e2⟩ := setMapping_rel sel h'.1 (by rw [h'.2]; exact hv _ rfl)
        simp only
        rw [M.bind_of_ok e1, M.bind_of_ok (show Mach.setMapping sel t' = .ok () _ from rfl)]
        simp only [M.get_bind]
        rw [e2.line]
        split
        · refine (ignoreNext_sim hx e2).bind fun _ s _ t _ h => ?_
          exact .ok trivial h
        · exact .ok trivial e2

/-! ## Composites -/

theorem tryInvoke_sim {s : Parser} {t : Mach} {v : List Val} {o : Option (List Val)} (fn : Option (List Val → Option Bool))
    (hv : VSome v o) (h : PRel x s t) :
    RSim (PRel x) (PRel x) (fun a b => a = b) (Parser.tryInvoke x v fn s) (Mach.tryInvoke x o fn t) := by
  unfold Parser.tryInvoke Mach.tryInvoke
  cases fn with
  | none => exact .ok rfl h
  | some f =>
    cases o with
    | none => trivial
    | some v' =>
      have := hv v' rfl
      subst this
      simp only
      cases hfv : f v with
      | none => exact .ok rfl h
      | some b =>
        cases b with
        | true => exact .ok rfl h
        | false =>
          refine (handleError_sim _ h (fun _ _ h => h) (fun _ _ h => h)).bind fun _ s _ t _ h => ?_
          exact .ok rfl h

/-- what the end of `try_next` and `or_else` does with the values -/
theorem invoke_sim {s : Parser} {t : Mach} {v : List Val} {o : Option (List Val)} (fn : Option (List Val → Option Bool))
    (hv : VSome v o) (h : PRel x s t) :
    RSim (PRel x) (PRel x) (fun a b => a = b)
      ((do
        let s ← M.get
        if s.valid x.cfg then
          let called ← Parser.tryInvoke x v fn
          let s ← M.get
          pure (if s.valid x.cfg then some v else none, called)
        else pure (none, false) : M Parser (Option (List Val) × Bool)) s)
      ((do
        let s ← M.get
        if s.valid x.cfg then
          let called ← Mach.tryInvoke x o fn
          let s ← M.get
          let o ← Mach.optional (s.valid x.cfg) o
          pure (o, called)
        else pure (none, false) : M Mach (Option (List Val) × Bool)) t) := by
  simp only [M.get_bind]
  rw [h.valid]
  split
  · refine (tryInvoke_sim fn hv h).bind fun a s b t hab h => ?_
    subst hab
    simp only [M.get_bind]
    rw [h.valid]
    unfold Mach.optional
    split
    · cases o with
      | none => trivial
      | some v' =>
        have := hv v' rfl
        subst this
        exact .ok rfl h
    · exact .ok rfl h
  · exact .ok rfl h

theorem tryNext_sim (hx : x.Good) {s : Parser} {t : Mach} (a : Parser.Alt) (h : PRel x s t) :
    RSim (PRel x) (PRel x) (fun a b => a = b) (Parser.tryNext x a s) (Mach.tryNext x a t) := by
  unfold Parser.tryNext Mach.tryNext
  refine (getNext_sim hx a.reqs h).bind fun v s o t hv h => ?_
  exact invoke_sim a.fn hv h

theorem trySame_sim {s : Parser} {t : Mach} (rs : List Req) (h : PRel x s t) :
    RSim (PRel x) (PRel x) VSome (Parser.trySame x rs s) (Mach.trySame x rs t) := by
  unfold Parser.trySame Mach.trySame
  simp only [Parser.clearError, Mach.clearError, M.modify_bind]
  have h' := clearError_rel h
  refine ((convertCur_sim rs h'.base (P := PRel x) h'.setCurErr).mono (fun _ _ h => h) (fun _ _ h => h.2)).bind
    fun v s o t hv h => ?_
  simp only [M.get_bind]
  refine RSim.bind (Q := PRel x) (V := fun _ _ => True) ?_ fun _ s _ t _ h => .ok hv h
  have : Conv.valid x.cfg s.rd.cur.conv = t.rd.cur.err.valid x.cfg.mode := by
    unfold Conv.valid; rw [h.base.cur.err]
  rw [this]
  split
  · exact .ok trivial h
  · exact handleErrorInvalidConversion_sim h

theorem orElse_sim {s : Parser} {t : Mach} (a : Parser.Alt) (h : PRel x s t) :
    RSim (PRel x) (PRel x) (fun a b => a = b) (Parser.orElse x a s) (Mach.orElse x a t) := by
  unfold Parser.orElse Mach.orElse
  simp only [M.get_bind]
  rw [h.valid]
  split
  · exact .ok rfl h
  · refine (trySame_sim a.reqs h).bind fun v s o t hv h => ?_
    exact invoke_sim a.fn hv h

theorem orElses_sim : ∀ (as : List Parser.Alt) {s : Parser} {t : Mach}, PRel x s t →
    RSim (PRel x) (PRel x) (fun a b => a = b) (Parser.orElses x as s) (Mach.orElses x as t) := by
  intro as
  induction as with
  | nil => intro s t h; exact .ok rfl h
  | cons a as ih =>
    intro s t h
    unfold Parser.orElses Mach.orElses
    refine (orElse_sim a h).bind fun r s r' t hr h => ?_
    subst hr
    refine (ih h).bind fun rs s rs' t hr h => ?_
    subst hr
    exact .ok rfl h

theorem tryChain_sim (hx : x.Good) {s : Parser} {t : Mach} (a : Parser.Alt) (as : List Parser.Alt) (h : PRel x s t) :
    RSim (PRel x) (PRel x) (fun a b => a = b) (Parser.tryChain x a as s) (Mach.tryChain x a as t) := by
  unfold Parser.tryChain Mach.tryChain
  refine (tryNext_sim hx a h).bind fun r s r' t hr h => ?_
  subst hr
  refine (orElses_sim as h).bind fun rs s rs' t hr h => ?_
  subst hr
  exact .ok rfl h

/-! ## Construction -/

theorem init_base (x : Ctx) : RBase x {} (Mach.init x).rd where
  cur := ⟨rfl, rfl, rfl, rfl, rfl, by intro cs h; cases h⟩
  next := ⟨rfl, rfl, rfl, rfl, rfl, by intro cs h; cases h⟩
  selok := by intro i hi; cases hi
  helper := rfl
  todo := by
    show rawLines x.src.data = _
    cases x.src <;> rfl
  ln := rfl
  done := by intro h; cases h
  curr := rfl
  chars := rfl

theorem init_mid (x : Ctx) : PMid x {} (Mach.init x) where
  err := rfl
  header := rfl
  rawHeader := rfl
  eof := rfl
  base := init_base x
  eofd := by intro h; cases h
  idle := .inr ⟨⟨rfl, fun _ => rfl⟩, ⟨rfl, fun _ => rfl⟩⟩

theorem readGo_look_nil {ie : Bool} : ∀ (ls : List Bytes) (a : MRd), (MRd.readGo ie ls a).1 = false → a.look = [] →
    (MRd.readGo ie ls a).2.look = [] := by
  intro ls
  induction ls with
  | nil => intro a _ h; simp [MRd.readGo, MRd.zap, h]
  | cons l ls ih =>
    intro a h hl
    unfold MRd.readGo at h ⊢
    split
    · rename_i hb; rw [if_pos hb] at h; exact ih _ h (by simp [MRd.overlay, hl])
    · rename_i hb; rw [if_neg hb] at h; cases h

theorem firstLine_sim (hx : x.Good) :
    RSim (PRel x) (PRel x) (fun _ _ => True) (Parser.firstLine x {}) (Mach.firstLine x (Mach.init x)) := by
  obtain ⟨r, h1, h2, h3, h4, h5, h6, _⟩ := readNext_spec hx.fine (init_base x)
  have hrl : Parser.readLine x {} = .ok () ({ rd := r, eof := !((Mach.init x).rd.readR x).1 } : Parser) := by
    unfold Parser.readLine
    rw [M.bind_of_ok (onRd_ok (s := {}) h1 rfl)]
    rfl
  have hrl' : Mach.readLine x (Mach.init x) = .ok () { rd := ((Mach.init x).rd.readR x).2, eof := !((Mach.init x).rd.readR x).1 } := rfl
  have hrel := readLine_sim hx (E := PRel x) (init_mid x)
  rw [hrl, hrl'] at hrel
  obtain ⟨_, s1, e1, _, hrel⟩ := hrel
  cases e1
  unfold Parser.firstLine Mach.firstLine
  rw [M.bind_of_ok hrl, M.bind_of_ok hrl']
  split
  · refine (ignoreNext_sim hx hrel).bind fun _ s _ t _ h => .ok trivial h
  · simp only [M.get_bind]
    have hb : Reader.getBuffer r = .ok ((Mach.init x).rd.readR x).2.look r := by
      unfold Reader.getBuffer
      cases hc : ((Mach.init x).rd.readR x).1 with
      | true =>
        have := h3 (.inl hc)
        rw [if_pos (Nat.le_of_lt this.lt), this.look]
      | false =>
        have h6' : r.nextLineSize = 0 := h6 hc
        have hl : ((Mach.init x).rd.readR x).2.look = [] := readGo_look_nil _ _ hc rfl
        rw [h6', hl]
        simp
    rw [M.bind_of_ok (onRd_ok (s := { rd := r, eof := !((Mach.init x).rd.readR x).1 }) hb rfl)]
    exact .ok trivial { hrel with rawHeader := rfl }

end

end Ssp
