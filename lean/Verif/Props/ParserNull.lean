import Verif.Props.ParserEof
import Verif.Proofs.MachineTotal
/-!
# A parser of a null buffer (C49)
-/
namespace Ssp
open Spec

/-- the state of a parser of a null buffer -/
structure NullSt (s : Parser) : Prop where
  eof : s.eof = true
  rd : s.rd = {}
  raw : s.rawHeader = []
  header : s.header = [] ∨ s.header = [[]]

/-- the calls that never read a line -/
def Op.NoRead (op : Op) : Prop := op ≠ .ignoreNext ∧ op ≠ .useFields [[]]

/-- the context can be used, whatever the input is -/
structure Ctx.Setup (x : Ctx) : Prop where
  wf : x.cfg.WF
  delim : x.delim ≠ []
  delim0 : NUL ∉ x.delim

theorem NullSt.err {s : Parser} (h : NullSt s) (e : ErrSt) : NullSt { s with err := e } := ⟨h.eof, h.rd, h.raw, h.header⟩

variable {x : Ctx} {s : Parser} {α : Type}

/-- the call comes back and then `P` holds -/
def Back (P : Parser → Prop) : Res Parser α → Prop
  | .ok _ t => P t
  | .exc _ t => P t
  | .ub => False
  | .nofuel => False

theorem Back.bind {β : Type} {P Q : Parser → Prop} {m : M Parser α} {f : α → M Parser β} (h : Back P (m s))
    (hf : ∀ a t, P t → Back Q (f a t)) (hq : ∀ t, P t → Q t) : Back Q ((m >>= f) s) := by
  rw [M.bind_apply]
  cases hm : m s with
  | ok a t => rw [hm] at h; exact hf _ _ h
  | exc e t => rw [hm] at h; exact hq _ h
  | ub => rw [hm] at h; exact h.elim
  | nofuel => rw [hm] at h; exact h.elim

theorem handleError_back (h : NullSt s) (m : Bytes) : Back NullSt (Parser.handleError x.cfg m s) := by
  unfold Parser.handleError
  cases x.cfg.mode with
  | throw => exact h
  | string => exact h.err _
  | bool => exact h.err _

theorem getNext_null (h : NullSt s) (rs : List Req) :
    Parser.getNext x rs s = (Parser.handleError x.cfg (x.fileName ++ bs ": read on end of file") >>= fun _ =>
      pure (Conv.defaults rs)) { s with err := s.err.clear x.cfg.mode } := by
  have hv : Conv.valid x.cfg ({} : Conv) = true := by unfold Conv.valid ErrSt.valid; cases x.cfg.mode <;> rfl
  have h1 : Parser.parseRowIf x s = .ok () s := by unfold Parser.parseRowIf; rw [if_pos h.eof]
  have h2 : Parser.onRd Reader.update s = .ok () s := by
    obtain ⟨e, r, hd, rw', eo⟩ := s
    have := h.rd
    simp only at this
    subst this
    rfl
  unfold Parser.getNext
  rw [M.bind_of_ok h1, M.bind_of_ok h2]
  simp only [M.get_bind, h.rd]
  rw [show Conv.valid x.cfg ({} : Reader).cur.conv = true from hv]
  simp only [Bool.not_true, Bool.false_eq_true, if_false]
  have h3 : Parser.clearError x.cfg s = .ok () { s with err := s.err.clear x.cfg.mode } := rfl
  rw [M.bind_of_ok h3]
  simp only [h.eof, if_true, h.rd]

theorem strictSplit_null (hx : x.Setup) (h : NullSt s) :
    ∃ sp, Parser.strictSplit x s = .ok (some sp) s ∧ ∀ t, Parser.columnsOf sp t = .ok [[]] t := by
  have hs : Holds ({ mem := ([] : Bytes) ++ [NUL] } : Spl) [] [] := ⟨rfl, by simp, rfl⟩
  have := split_full (headerCfg_wf hx.wf) hx.delim hx.delim0 hs
  rw [decodeRow_nil] at this
  rw [show endError (Parser.headerCfg x) ([] : Bytes).length End.eol = none from (endError_none_iff (n := 0)).mpr rfl] at this
  obtain ⟨sp, h1, _, h2, _, h3, h4⟩ := this
  refine ⟨sp, ?_, ?_⟩
  · unfold Parser.strictSplit
    rw [h.raw, h1]
    simp only [h2, headerCfg_mode, ErrSt.valid_clear, if_true]
  · intro t
    unfold Parser.columnsOf
    rw [if_pos fun p hp => ⟨(h3.inside p hp).1, Nat.le_of_lt (h3.inside p hp).2⟩]
    exact congrArg (Res.ok · t) (h4 rfl)

theorem clear_null (h : NullSt s) (c : Cfg) : Back NullSt (Parser.clearError c s) := h.err _

theorem splitHeaderDataIf_null (hx : x.Setup) (h : NullSt s) {p : Parser → Bool} (hp : p s = true → s.header = []) :
    Back NullSt (Parser.splitHeaderDataIf x p s) := by
  unfold Parser.splitHeaderDataIf
  split
  · rename_i hps
    obtain ⟨sp, h1, h2⟩ := strictSplit_null hx h
    unfold Parser.splitHeaderData
    rw [M.bind_of_ok h1]
    simp only
    rw [M.bind_of_ok (h2 s)]
    unfold Parser.addHeader
    simp only [M.get_bind, hp hps, List.not_mem_nil, if_false]
    exact ⟨h.eof, h.rd, h.raw, .inr (by simp [hp hps])⟩
  · exact h

theorem mapFields_null (h : NullSt s) (all : List Bytes) : ∀ (fs : List Bytes),
    (∃ m, Parser.mapFields x all fs s = (Parser.handleError x.cfg m >>= fun _ => pure none) s) ∨
    (∃ is, Parser.mapFields x all fs s = .ok (some is) s ∧ (∀ f ∈ fs, f = [] ∧ all.count f = 1)) := by
  intro fs
  induction fs with
  | nil => exact .inr ⟨[], rfl, by simp⟩
  | cons f fs ih =>
    unfold Parser.mapFields
    by_cases hc : all.count f ≠ 1
    · rw [if_pos hc]; exact .inl ⟨_, rfl⟩
    · rw [if_neg hc]
      simp only [M.get_bind]
      cases hi : s.headerIndex f with
      | none => exact .inl ⟨_, rfl⟩
      | some i =>
        simp only
        rcases ih with ⟨m, ih⟩ | ⟨is, ih, ha⟩
        · refine .inl ⟨m, ?_⟩
          rw [M.bind_apply, ih]
          unfold Parser.handleError
          cases x.cfg.mode <;> rfl
        · refine .inr ⟨i :: is, by rw [M.bind_of_ok ih]; rfl, ?_⟩
          have hf : f = [] := by
            unfold Parser.headerIndex at hi
            rcases h.header with e | e
            · rw [e] at hi; simp at hi
            · rw [e] at hi
              by_cases hf : f = []
              · exact hf
              · have := List.idxOf?_eq_none_iff.mpr (show f ∉ [([] : Bytes)] by simp [hf])
                rw [this] at hi; cases hi
          intro g hg
          rcases List.mem_cons.mp hg with rfl | hg
          · exact ⟨hf, by simpa using hc⟩
          · exact ha g hg

theorem all_nil_once {fs : List Bytes} (hne : fs ≠ []) (h : ∀ f ∈ fs, f = [] ∧ fs.count f = 1) : fs = [[]] := by
  cases fs with
  | nil => exact absurd rfl hne
  | cons f fs =>
    obtain ⟨rfl, h1⟩ := h f (by simp)
    cases fs with
    | nil => rfl
    | cons g gs =>
      obtain ⟨rfl, _⟩ := h g (by simp)
      simp at h1

theorem exec_null (hx : x.Setup) (h : NullSt s) {op : Op} (ho : op.NoRead) : Back NullSt (op.exec x s) := by
  cases op with
  | getNext rs =>
    refine Back.bind (P := NullSt) ?_ (fun _ _ h => h) fun _ h => h
    rw [getNext_null h]
    exact Back.bind (handleError_back (h.err _) _) (fun _ _ h => h) fun _ h => h
  | ignoreNext => exact absurd rfl ho.1
  | header =>
    refine Back.bind (P := NullSt) ?_ (fun _ _ h => h) fun _ h => h
    unfold Parser.getHeader
    refine Back.bind (clear_null h x.cfg) (fun _ t h => ?_) fun _ h => h
    obtain ⟨sp, h1, h2⟩ := strictSplit_null hx h
    rw [M.bind_of_ok h1]
    simp only
    rw [h2]; exact h
  | rawHeader => exact h
  | fieldExists f =>
    refine Back.bind (P := NullSt) ?_ (fun _ _ h => h) fun _ h => h
    unfold Parser.fieldExists
    refine Back.bind (clear_null h x.cfg) (fun _ t h => ?_) fun _ h => h
    refine Back.bind (splitHeaderDataIf_null hx h (by simp)) (fun _ t h => ?_) fun _ h => h
    simp only [M.get_bind]
    split <;> exact h
  | useFields fs =>
    refine Back.bind (P := NullSt) ?_ (fun _ _ h => h) fun _ h => h
    unfold Parser.useFields
    refine Back.bind (clear_null h x.cfg) (fun _ t h => ?_) fun _ h => h
    refine Back.bind (splitHeaderDataIf_null hx h (by simp_all)) (fun _ t h => ?_) fun _ h => h
    simp only [M.get_bind]
    split
    · exact h
    · split
      · exact handleError_back h _
      · rename_i hne
        rcases mapFields_null (x := x) h fs fs with ⟨m, e⟩ | ⟨is, _, ha⟩
        · rw [M.bind_apply, e]
          unfold Parser.handleError
          cases x.cfg.mode with
          | throw => exact h
          | string => exact h.err _
          | bool => exact h.err _
        · have := all_nil_once hne ha
          exact absurd (by rw [this]) ho.2
  | chain a as =>
    unfold Op.exec
    simp only [M.get_bind, h.eof, if_true]
    exact h

theorem Back.step (hx : x.Setup) (h : NullSt s) {op : Op} (ho : op.NoRead) :
    ∃ o s', Parser.step x op s = some (o, s') ∧ NullSt s' ∧ o.eof = true ∧ o.line = 0 ∧ o.position = 0 := by
  have hb := exec_null hx h ho
  unfold Parser.step
  cases he : op.exec x s with
  | ok r t =>
    rw [he] at hb
    have hb : NullSt t := hb
    exact ⟨_, t, rfl, hb, hb.eof, by simp [Parser.observe, Parser.line, hb.rd], by simp [Parser.observe, Parser.position, hb.rd]⟩
  | exc e t =>
    rw [he] at hb
    have hb : NullSt t := hb
    exact ⟨_, t, rfl, hb, hb.eof, by simp [Parser.observe, Parser.line, hb.rd], by simp [Parser.observe, Parser.position, hb.rd]⟩
  | ub => rw [he] at hb; exact hb.elim
  | nofuel => rw [he] at hb; exact hb.elim

theorem run_null (hx : x.Setup) : ∀ (ops : List Op) {s : Parser}, NullSt s → (∀ op ∈ ops, op.NoRead) →
    ∃ os s', Parser.run x ops s = some (os, s') ∧ NullSt s' ∧ ∀ o ∈ os, o.eof = true ∧ o.line = 0 ∧ o.position = 0
  | [], s, h, _ => ⟨[], s, rfl, h, by simp⟩
  | op :: ops, s, h, ho => by
    obtain ⟨o, s1, h1, h2, h3⟩ := Back.step hx h (ho op (by simp))
    obtain ⟨os, s2, h4, h5, h6⟩ := run_null hx ops h2 (fun op h => ho op (by simp [h]))
    refine ⟨o :: os, s2, by simp [Parser.run, h1, h4], h5, ?_⟩
    intro o' ho'
    rcases List.mem_cons.mp ho' with rfl | ho'
    · exact h3
    · exact h6 _ ho'

theorem created_null {n : Nat} (hs : x.src = .buf none n) (h : Parser.Created x s) :
    NullSt s ∧ x.cfg.mode ≠ .throw ∧ ∃ m, s.err = ({} : ErrSt).set x.cfg.mode (x.fileName ++ m) ∧
      (m = bs ": received null data buffer" ∨ m = bs ": could not be opened") := by
  have key : ∀ m, (Parser.handleError x.cfg m >>= fun _ => M.modify fun s => { s with eof := true }) ({} : Parser) = .ok () s →
      x.cfg.mode ≠ .throw ∧ s = { err := ({} : ErrSt).set x.cfg.mode m, eof := true } := by
    intro m h
    unfold Parser.handleError at h
    cases hmode : x.cfg.mode <;> rw [hmode] at h <;> simp at h <;> exact ⟨by simp, h.symm⟩
  cases h with
  | file hs' h => rw [hs] at hs'; cases hs'
  | missing hs' h =>
    unfold Parser.newFile at h
    rw [hs'] at h
    obtain ⟨h1, rfl⟩ := key _ h
    exact ⟨⟨rfl, rfl, rfl, .inl rfl⟩, h1, _, rfl, .inr rfl⟩
  | buffer hs' h =>
    rw [hs] at hs'; cases hs'
    unfold Parser.newBuffer at h
    rw [hs] at h
    obtain ⟨h1, rfl⟩ := key _ h
    exact ⟨⟨rfl, rfl, rfl, .inl rfl⟩, h1, _, rfl, .inl rfl⟩

/-- C49: constructing a parser from a null pointer throws with `throw_on_error`; otherwise it gives a parser at the end of
the input, with an error. -/
theorem C49_construction {n : Nat} (hs : x.src = .buf none n) :
    if x.cfg.mode = .throw then ∃ s, Parser.newBuffer x {} = .exc (x.fileName ++ bs ": received null data buffer") s
    else ∃ s, Parser.newBuffer x {} = .ok () s ∧ s.eof = true ∧ s.valid x.cfg = false ∧
      (x.cfg.mode = .string → s.err.msg = x.fileName ++ bs ": received null data buffer") := by
  unfold Parser.newBuffer Parser.handleError Parser.valid
  rw [hs]
  have hne : x.fileName ++ bs ": received null data buffer" ≠ [] := by
    intro h; exact absurd (List.append_eq_nil_iff.mp h).2 (by decide)
  cases hm : x.cfg.mode with
  | throw => exact ⟨_, rfl⟩
  | string =>
    refine ⟨_, rfl, rfl, ?_, fun _ => rfl⟩
    exact ErrSt.valid_set (m := .string) (by simp) hne _
  | bool =>
    refine ⟨_, rfl, rfl, ?_, fun h => by cases h⟩
    exact ErrSt.valid_set (m := .bool) (by simp) hne _

/-- C49: a parser of a null pointer, of any size, never reads it - as long as neither `ignore_next` nor `use_fields("")` is
called: every call comes back, `eof()` stays true, `line()` and `position()` stay 0, and `get_next` always is an error.
(For `ignore_next` this is wrong, see `C49_ignore_next`; for size 0 there is no restriction, see `C49_size_zero`.) -/
theorem C49_null_buffer_partial (hx : x.Setup) {n : Nat} (hs : x.src = .buf none n) (h : Parser.Created x s) (ops : List Op)
    (ho : ∀ op ∈ ops, op.NoRead) :
    ∃ os s', Parser.run x ops s = some (os, s') ∧ s'.eof = true ∧ (∀ o ∈ os, o.eof = true ∧ o.line = 0 ∧ o.position = 0) ∧
      ∀ rs, Parser.Fails x (Parser.getNext x rs s') (x.fileName ++ bs ": read on end of file") := by
  obtain ⟨h0, hth, _⟩ := created_null hs h
  obtain ⟨os, s', h1, h2, h3⟩ := run_null hx ops h0 ho
  refine ⟨os, s', h1, h2.eof, h3, fun rs => ?_⟩
  rw [getNext_null h2]
  have hne : x.fileName ++ bs ": read on end of file" ≠ [] := by
    intro h; exact absurd (List.append_eq_nil_iff.mp h).2 (by decide)
  unfold Parser.Fails Parser.handleError Parser.valid
  cases hm : x.cfg.mode with
  | throw => exact absurd hm hth
  | string => exact ⟨_, _, rfl, ErrSt.valid_set (m := .string) (by simp) hne _, rfl⟩
  | bool => exact ⟨_, _, rfl, ErrSt.valid_set (m := .bool) (by simp) hne _⟩

/-- C49: with the size 0 every call is safe. -/
theorem C49_size_zero (hx : x.Setup) (hs : x.src = .buf none 0) (h : Parser.Created x s) (ops : List Op)
    (hT : Parser.Covered x ops s) : ∃ os s', Parser.run x ops s = some (os, s') ∧ os.length = ops.length := by
  have hok : x.Ok := ⟨hx.wf, hx.delim, hx.delim0, by rw [hs]; rfl⟩
  have hl := hok.liveT
  obtain ⟨t, hp, hi, _⟩ := h.reachT.sim hl
  obtain ⟨os, _, s', _, h1, _⟩ := run_simT hl ops hT.run hp hi
  exact ⟨os, s', h1, run_length ops h1⟩

/-- C49 fails for `ignore_next`: a parser of a null pointer with a size that is not 0 dereferences it. -/
theorem C49_ignore_next {n : Nat} (hs : x.src = .buf none (n + 1)) (h : Parser.Created x s) : Parser.ignoreNext x s = .ub := by
  obtain ⟨h0, _⟩ := created_null hs h
  have hr : Reader.readNext x {} = .ub := by
    have hb : Reader.bound x = 2 := by unfold Reader.bound; rw [hs]; rfl
    unfold Reader.readNext
    rw [hb]
    have hcl : ∃ e, Reader.onNext (Conv.clearError x.cfg) ({} : Reader) = .ok () { ({} : Reader) with next := { conv := { err := e } } } := by
      unfold Reader.onNext Conv.clearError
      cases x.cfg.mode <;> exact ⟨_, rfl⟩
    obtain ⟨e, hcl⟩ := hcl
    rw [M.bind_of_ok hcl]
    unfold Reader.readNextLoop
    simp only [M.modify_bind, M.get_bind]
    have hgl : ∀ r : Reader, r.curr = 0 → r.next.conv.spl.mem = [] → Reader.getLineNext x r = .ub := by
      intro r h1 h2
      unfold Reader.getLineNext Io.getLine
      rw [hs]
      simp only
      have : Io.getLineBuffer x.env none (n + 1) r.ioNext = .ub := by
        unfold Io.getLineBuffer
        simp only [M.get_bind]
        rw [if_neg (by show ¬ r.curr ≥ n + 1; omega)]
        have hra : ∃ io, Io.reallocIf x.env (r.ioNext.mem = [] ∨ r.ioNext.n < Io.initialSize) Io.initialSize r.ioNext = .ok () io ∧
            io.curr = 0 ∧ io.n = Io.initialSize := by
          unfold Io.reallocIf
          rw [if_pos (.inl (show r.next.conv.spl.mem = [] from h2))]
          exact ⟨_, rfl, h1, rfl⟩
        obtain ⟨io, hra, hc, hn⟩ := hra
        rw [M.bind_of_ok hra, M.bind_apply]
        have : Io.bufLoop x.env none (n + 1) (n + 1 + 1) 0 io = .ub := by
          unfold Io.bufLoop
          simp only [M.get_bind]
          rw [if_pos (by omega)]
          have : Io.reallocIf x.env (0 + 1 ≥ io.n) (io.n * 2) io = .ok () io := by
            unfold Io.reallocIf
            rw [if_neg (by rw [hn]; decide)]
          rw [M.bind_of_ok this, M.bind_apply]
          rfl
        rw [this]
      rw [this]
    simp only [Nat.lt_irrefl, gt_iff_lt, if_false, M.pure_bind']
    rw [M.modify_bind, M.bind_apply, hgl _ rfl rfl]
  unfold Parser.ignoreNext Parser.onRd
  rw [h0.rd, hr]

namespace Demo
/-- a null pointer, of size 3 -/
def nctx (c : Cfg) (n : Nat) : Ctx := { ctx c "" with src := .buf none n }
end Demo

open Demo in
example : (nctx cs 3).Setup ∧ (nctx cs 3).src = .buf none 3 ∧
    ∃ s, Parser.Created (nctx cs 3) s ∧
      Parser.run (nctx cs 3) [.getNext [num], .header, .fieldExists (bs "a"), .useFields [bs "a"], .getNext [num]] s =
        some (([(.row none, bs "f: read on end of file"), (.names [[]], []), (.flag false, []),
          (.unit, bs "f: header does not contain given field: a"), (.row none, bs "f: read on end of file")] : List (Ret × Bytes)).map
            fun r => { ret := r.1, valid := r.2.isEmpty, msg := r.2, eof := true, line := 0, position := 0 },
          { err := { msg := bs "f: read on end of file" }, header := [[]], eof := true }) := by
  refine ⟨⟨cs_wf, by decide, by decide⟩, rfl, { err := { msg := bs "f: received null data buffer" }, eof := true }, ?_, by decide +kernel⟩
  exact .buffer (p := none) (n := 3) rfl (by decide +kernel)

open Demo in
/-- C49 fails for `use_fields("")` after `field_exists`: the empty header has one column, the empty one, and the first line is
then skipped as in `ignore_next`. -/
theorem C49_use_fields : Parser.newBuffer (nctx cs 3) {} = .ok () { err := { msg := bs "f: received null data buffer" }, eof := true } ∧
    Parser.run (nctx cs 3) [.fieldExists (bs "a"), .useFields [[]]] { err := { msg := bs "f: received null data buffer" }, eof := true } = none := by
  decide +kernel

end Ssp
