import Verif.Props.ParserHeader
import Verif.Props.ParserNull
/-!
# Questions about the header do not disturb reading (C77)
-/
namespace Ssp
open Spec

/-- the calls that only ask: `header()`, `raw_header()`, `field_exists(f)` -/
def Op.Asks : Op → Bool
  | .header | .rawHeader | .fieldExists _ => true
  | _ => false

/-- The calls behind which `valid()` and `error_msg()` speak of the call itself: not `ignore_next`, which does not touch the error, and
not a composite that is not made because `eof()` is true. -/
def Op.Judges (op : Op) (r : Ret) : Prop :=
  op ≠ .ignoreNext ∧ r ≠ .opts [] ∧ ∀ m, r ≠ .thrown m

/-- The call did the same: it returned or threw the same, `eof()`, `line()` and `position()` are the same, and if they speak of this
call, `valid()` and `error_msg()` too. -/
structure SameDone (op : Op) (o o' : Obs) : Prop where
  ret : o.ret = o'.ret
  eof : o.eof = o'.eof
  line : o.line = o'.line
  position : o.position = o'.position
  valid : op.Judges o.ret → o.valid = o'.valid
  msg : op.Judges o.ret → o.msg = o'.msg

/-- the calls of a run, each with what was observed of it, without the questions -/
def deeds (ops : List Op) (os : List Obs) : List (Op × Obs) := (ops.zip os).filter fun p => !p.1.Asks

/-- `use_fields` is only called before the end of the input is reached -/
def Parser.UsesEarly (x : Ctx) : List Op → Parser → Prop
  | [], _ => True
  | op :: ops, s => (∀ fs, op = .useFields fs → s.eof = false) ∧ ∀ o s', Parser.step x op s = some (o, s') → UsesEarly x ops s'

namespace Quest
open Parser
variable {x : Ctx} {α β : Type}

/-- equal up to the header names that were split already, and an error that is about to be overwritten -/
structure W (x : Ctx) (s t : Parser) : Prop where
  rd : t.rd = s.rd
  eof : t.eof = s.eof
  raw : t.rawHeader = s.rawHeader
  msg : x.cfg.mode ≠ .string → t.err.msg = s.err.msg
  flag : x.cfg.mode ≠ .bool → t.err.flag = s.err.flag

theorem W.refl (s : Parser) : W x s s := ⟨rfl, rfl, rfl, fun _ => rfl, fun _ => rfl⟩
theorem W.trans {s t u : Parser} (h : W x s t) (k : W x t u) : W x s u :=
  ⟨k.rd.trans h.rd, k.eof.trans h.eof, k.raw.trans h.raw, fun m => (k.msg m).trans (h.msg m), fun m => (k.flag m).trans (h.flag m)⟩
theorem W.symm {s t : Parser} (h : W x s t) : W x t s :=
  ⟨h.rd.symm, h.eof.symm, h.raw.symm, fun m => (h.msg m).symm, fun m => (h.flag m).symm⟩

theorem W.set {s t : Parser} (h : W x s t) (m : Bytes) : t.err.set x.cfg.mode m = s.err.set x.cfg.mode m := by
  obtain ⟨⟨m1, f1⟩, _⟩ := s
  obtain ⟨⟨m2, f2⟩, _⟩ := t
  have h1 := h.msg
  have h2 := h.flag
  simp only at h1 h2
  unfold ErrSt.set
  cases hm : x.cfg.mode <;> simp_all

theorem W.clear {s t : Parser} (h : W x s t) : t.err.clear x.cfg.mode = s.err.clear x.cfg.mode := by
  obtain ⟨⟨m1, f1⟩, _⟩ := s
  obtain ⟨⟨m2, f2⟩, _⟩ := t
  have h1 := h.msg
  have h2 := h.flag
  simp only at h1 h2
  unfold ErrSt.clear
  cases hm : x.cfg.mode <;> simp_all

theorem W.of_set (s : Parser) (m : Bytes) (hd : List Bytes) : W x s { s with err := s.err.set x.cfg.mode m, header := hd } := by
  refine ⟨rfl, rfl, rfl, fun h => ?_, fun h => ?_⟩ <;> unfold ErrSt.set <;> cases hm : x.cfg.mode <;> simp_all

theorem W.of_clear (s : Parser) : W x s { s with err := s.err.clear x.cfg.mode } := by
  refine ⟨rfl, rfl, rfl, fun h => ?_, fun h => ?_⟩ <;> unfold ErrSt.clear <;> cases hm : x.cfg.mode <;> simp_all

/-- equal up to the header names -/
theorem eqh {s t : Parser} (h : W x s t) (he : t.err = s.err) : t = { s with header := t.header } := by
  obtain ⟨e, r, hd, rw', eo⟩ := s
  obtain ⟨e', r', hd', rw'', eo'⟩ := t
  have h1 := h.rd; have h2 := h.eof; have h3 := h.raw
  simp only at h1 h2 h3 he
  subst h1 h2 h3 he
  rfl

/-! ## Calls that do not look at the header names -/

/-- the same result, and the states are equal up to the header names, which are as before (and so is the raw header) -/
def Eqh (h1 : List Bytes × Bytes) (h2 : List Bytes) : Res Parser α → Res Parser α → Prop
  | .ok a s, .ok b t => a = b ∧ (s.header, s.rawHeader) = h1 ∧ t = { s with header := h2 }
  | .exc e s, .exc f t => e = f ∧ (s.header, s.rawHeader) = h1 ∧ t = { s with header := h2 }
  | .ub, .ub => True
  | .nofuel, .nofuel => True
  | _, _ => False

def Fr (m : M Parser α) : Prop := ∀ (s : Parser) (h : List Bytes), Eqh (s.header, s.rawHeader) h (m s) (m { s with header := h })

theorem Eqh.bind {h1 : List Bytes × Bytes} {h2 : List Bytes} {r1 r2 : Parser} {m n : M Parser α} {f : α → M Parser β} (h : Eqh h1 h2 (m r1) (n r2)) (hf : ∀ a, Fr (f a)) :
    Eqh h1 h2 ((m >>= f) r1) ((n >>= f) r2) := by
  rw [M.bind_apply, M.bind_apply]
  cases hm : m r1 with
  | ok a s =>
    cases hn : n r2 with
    | ok b t =>
      rw [hm, hn] at h
      obtain ⟨rfl, e, rfl⟩ := h
      have := hf a s h2
      rw [e] at this
      exact this
    | exc _ _ => rw [hm, hn] at h; exact h.elim
    | ub => rw [hm, hn] at h; exact h.elim
    | nofuel => rw [hm, hn] at h; exact h.elim
  | exc e s =>
    cases hn : n r2 with
    | exc f t => rw [hm, hn] at h; exact h
    | ok _ _ => rw [hm, hn] at h; exact h.elim
    | ub => rw [hm, hn] at h; exact h.elim
    | nofuel => rw [hm, hn] at h; exact h.elim
  | ub =>
    cases hn : n r2 with
    | ub => trivial
    | ok _ _ => rw [hm, hn] at h; exact h.elim
    | exc _ _ => rw [hm, hn] at h; exact h.elim
    | nofuel => rw [hm, hn] at h; exact h.elim
  | nofuel =>
    cases hn : n r2 with
    | nofuel => trivial
    | ok _ _ => rw [hm, hn] at h; exact h.elim
    | exc _ _ => rw [hm, hn] at h; exact h.elim
    | ub => rw [hm, hn] at h; exact h.elim

theorem Fr.bind {m : M Parser α} {f : α → M Parser β} (h : Fr m) (hf : ∀ a, Fr (f a)) : Fr (m >>= f) := fun s hd => (h s hd).bind hf
theorem Fr.pure (a : α) : Fr (Pure.pure a : M Parser α) := fun _ _ => ⟨rfl, rfl, rfl⟩
theorem Fr.throw (e : Bytes) : Fr (M.throw e : M Parser α) := fun _ _ => ⟨rfl, rfl, rfl⟩
theorem Fr.get {f : Parser → M Parser α} (hf : ∀ s, Fr (f s)) (hi : ∀ s h, f { s with header := h } = f s) : Fr (M.get >>= f) := by
  intro s h
  rw [M.get_bind, M.get_bind, show f { s with header := h } = f s from hi s h]
  exact hf s s h
theorem Fr.modify {f : Parser → Parser} (h1 : ∀ s, ((f s).header, (f s).rawHeader) = (s.header, s.rawHeader)) (h2 : ∀ s h, f { s with header := h } = { f s with header := h }) :
    Fr (M.modify f) := fun s h => ⟨rfl, h1 s, h2 s h⟩
theorem Fr.ite {p : Prop} [Decidable p] {m n : M Parser α} (hm : Fr m) (hn : Fr n) : Fr (if p then m else n) := by
  split
  · exact hm
  · exact hn

theorem Fr.onRd (m : M Reader α) : Fr (Parser.onRd m) := by
  intro s h
  unfold Parser.onRd
  cases m s.rd with
  | ok a r => exact ⟨rfl, rfl, rfl⟩
  | exc a r => exact ⟨rfl, rfl, rfl⟩
  | ub => trivial
  | nofuel => trivial

theorem Fr.onCur (m : M Conv α) : Fr (Parser.onCur m) := by
  intro s h
  unfold Parser.onCur
  cases m s.rd.cur.conv with
  | ok a r => exact ⟨rfl, rfl, rfl⟩
  | exc a r => exact ⟨rfl, rfl, rfl⟩
  | ub => trivial
  | nofuel => trivial

theorem Fr.tryCatch {m : M Parser α} {k : Bytes → M Parser α} (hm : Fr m) (hk : ∀ e, Fr (k e)) : Fr (Parser.tryCatch m k) := by
  intro s h
  have := hm s h
  unfold Parser.tryCatch
  cases h1 : m s with
  | ok a s1 =>
    cases h2 : m { s with header := h } with
    | ok b t => rw [h1, h2] at this; exact this
    | exc _ _ => rw [h1, h2] at this; exact this.elim
    | ub => rw [h1, h2] at this; exact this.elim
    | nofuel => rw [h1, h2] at this; exact this.elim
  | exc e s1 =>
    cases h2 : m { s with header := h } with
    | exc f t =>
      rw [h1, h2] at this
      obtain ⟨rfl, e1, rfl⟩ := this
      have := hk e s1 h
      rw [e1] at this
      exact this
    | ok _ _ => rw [h1, h2] at this; exact this.elim
    | ub => rw [h1, h2] at this; exact this.elim
    | nofuel => rw [h1, h2] at this; exact this.elim
  | ub =>
    cases h2 : m { s with header := h } with
    | ub => trivial
    | ok _ _ => rw [h1, h2] at this; exact this.elim
    | exc _ _ => rw [h1, h2] at this; exact this.elim
    | nofuel => rw [h1, h2] at this; exact this.elim
  | nofuel =>
    cases h2 : m { s with header := h } with
    | nofuel => trivial
    | ok _ _ => rw [h1, h2] at this; exact this.elim
    | exc _ _ => rw [h1, h2] at this; exact this.elim
    | ub => rw [h1, h2] at this; exact this.elim

theorem fr_handleError (c : Cfg) (m : Bytes) : Fr (handleError c m) := by
  unfold handleError
  cases c.mode
  · exact Fr.modify (fun _ => rfl) fun _ _ => rfl
  · exact Fr.modify (fun _ => rfl) fun _ _ => rfl
  · exact Fr.throw _

theorem fr_clearError (c : Cfg) : Fr (clearError c) := Fr.modify (fun _ => rfl) fun _ _ => rfl
theorem fr_invalid (x : Ctx) : Fr (handleErrorInvalidConversion x) := Fr.modify (fun _ => rfl) fun _ _ => rfl
theorem fr_readLine (x : Ctx) : Fr (readLine x) := Fr.bind (Fr.onRd _) fun _ => Fr.modify (fun _ => rfl) fun _ _ => rfl
theorem fr_rethrow (x : Ctx) (e : Bytes) : Fr (decorateRethrow x e : M Parser α) := fun _ _ => ⟨rfl, rfl, rfl⟩

theorem fr_parseRow (x : Ctx) : Fr (parseRow x) := by
  unfold parseRow
  cases x.cfg.mode
  · exact Fr.onRd _
  · exact Fr.onRd _
  · exact Fr.tryCatch (Fr.onRd _) fun e => Fr.bind (fr_readLine x) fun _ => fr_rethrow x e

theorem fr_parseRowIf (x : Ctx) : Fr (parseRowIf x) := by
  intro s h
  unfold parseRowIf
  by_cases he : s.eof = true
  · rw [if_pos he, if_pos he]; exact ⟨rfl, rfl, rfl⟩
  · rw [if_neg he, if_neg he]; exact fr_parseRow x s h

theorem fr_convertRow (x : Ctx) (rs : List Req) : Fr (convertRow x rs) := by
  unfold convertRow
  cases x.cfg.mode
  case throw =>
    exact Fr.tryCatch (Fr.bind (Fr.onCur _) fun _ => Fr.bind (fr_readLine x) fun _ => Fr.pure _) fun e =>
      Fr.bind (fr_readLine x) fun _ => fr_rethrow x e
  all_goals
    refine Fr.bind (Fr.onCur _) fun v => Fr.get (fun s => ?_) fun _ _ => rfl
    exact Fr.bind (Fr.ite (Fr.pure _) (fr_invalid x)) fun _ => Fr.bind (fr_readLine x) fun _ => Fr.pure _

/-- `get_next` behind the parsing of the row -/
def tail (x : Ctx) (rs : List Req) : M Parser (List Val) := do
  let s ← M.get
  if !Conv.valid x.cfg s.rd.cur.conv then
    handleErrorInvalidConversion x
    readLine x
    pure (Conv.defaults rs)
  else
    clearError x.cfg
    if s.eof then
      handleError x.cfg (x.fileName ++ bs ": read on end of file")
      pure (Conv.defaults rs)
    else convertRow x rs

theorem fr_tail (x : Ctx) (rs : List Req) : Fr (tail x rs) := by
  unfold tail
  refine Fr.get (fun s => ?_) fun _ _ => rfl
  refine Fr.ite (Fr.bind (fr_invalid x) fun _ => Fr.bind (fr_readLine x) fun _ => Fr.pure _) ?_
  refine Fr.bind (fr_clearError _) fun _ => Fr.ite (Fr.bind (fr_handleError _ _) fun _ => Fr.pure _) (fr_convertRow x rs)

theorem fr_getNext (x : Ctx) (rs : List Req) : Fr (getNext x rs) :=
  Fr.bind (fr_parseRowIf x) fun _ => Fr.bind (Fr.onRd _) fun _ => fr_tail x rs

/-- the tail looks at no error -/
theorem tail_W {s t : Parser} (h : W x s t) (rs : List Req) : Eqh (s.header, s.rawHeader) t.header (tail x rs s) (tail x rs t) := by
  unfold tail
  rw [M.get_bind, M.get_bind, h.rd, h.eof]
  by_cases hv : (!Conv.valid x.cfg s.rd.cur.conv) = true
  · rw [if_pos hv]
    refine Eqh.bind (m := handleErrorInvalidConversion x) (n := handleErrorInvalidConversion x) ?_ fun _ =>
      Fr.bind (fr_readLine x) fun _ => Fr.pure _
    unfold handleErrorInvalidConversion
    refine ⟨rfl, rfl, ?_⟩
    obtain ⟨e, r, hd, rw', eo⟩ := s
    obtain ⟨e', r', hd', rw'', eo'⟩ := t
    have h1 := h.rd; have h2 := h.eof; have h3 := h.raw
    have h4 := h.set
    simp only at h1 h2 h3 h4
    subst h1 h2 h3
    simp only [h4]
  · rw [if_neg hv]
    refine Eqh.bind (m := clearError x.cfg) (n := clearError x.cfg) ?_ fun _ =>
      Fr.ite (Fr.bind (fr_handleError _ _) fun _ => Fr.pure _) (fr_convertRow x rs)
    refine ⟨rfl, rfl, ?_⟩
    obtain ⟨e, r, hd, rw', eo⟩ := s
    obtain ⟨e', r', hd', rw'', eo'⟩ := t
    have h1 := h.rd; have h2 := h.eof; have h3 := h.raw
    have h4 := h.clear
    simp only at h1 h2 h3 h4
    subst h1 h2 h3
    simp only [h4]

/-- the same result: afterwards the states are equal up to the header names, or after an exception up to an old error too -/
def Eqw (x : Ctx) (h1 : List Bytes × Bytes) (h2 : List Bytes) : Res Parser α → Res Parser α → Prop
  | .ok a s, .ok b t => a = b ∧ (s.header, s.rawHeader) = h1 ∧ t = { s with header := h2 }
  | .exc e s, .exc f t => e = f ∧ (s.header, s.rawHeader) = h1 ∧ t.header = h2 ∧ W x s t
  | .ub, .ub => True
  | .nofuel, .nofuel => True
  | _, _ => False

theorem Eqh.weak {h1 : List Bytes × Bytes} {h2 : List Bytes} {r1 r2 : Res Parser α} (h : Eqh h1 h2 r1 r2) : Eqw x h1 h2 r1 r2 := by
  cases r1 <;> cases r2 <;> try exact h
  obtain ⟨h3, h4, rfl⟩ := h
  exact ⟨h3, h4, rfl, ⟨rfl, rfl, rfl, fun _ => rfl, fun _ => rfl⟩⟩

theorem Eqw.bind {h1 : List Bytes × Bytes} {h2 : List Bytes} {s t : Parser} {m : M Parser α} {f : α → M Parser β} (h : Eqw x h1 h2 (m s) (m t)) (hf : ∀ a, Fr (f a)) :
    Eqw x h1 h2 ((m >>= f) s) ((m >>= f) t) := by
  rw [M.bind_apply, M.bind_apply]
  cases hm : m s with
  | ok a s1 =>
    cases hn : m t with
    | ok b t1 =>
      rw [hm, hn] at h
      obtain ⟨rfl, e, rfl⟩ := h
      have := hf a s1 h2
      rw [e] at this
      exact this.weak
    | exc _ _ => rw [hm, hn] at h; exact h.elim
    | ub => rw [hm, hn] at h; exact h.elim
    | nofuel => rw [hm, hn] at h; exact h.elim
  | exc e s1 =>
    cases hn : m t with
    | exc f t1 => rw [hm, hn] at h; exact h
    | ok _ _ => rw [hm, hn] at h; exact h.elim
    | ub => rw [hm, hn] at h; exact h.elim
    | nofuel => rw [hm, hn] at h; exact h.elim
  | ub =>
    cases hn : m t with
    | ub => trivial
    | ok _ _ => rw [hm, hn] at h; exact h.elim
    | exc _ _ => rw [hm, hn] at h; exact h.elim
    | nofuel => rw [hm, hn] at h; exact h.elim
  | nofuel =>
    cases hn : m t with
    | nofuel => trivial
    | ok _ _ => rw [hm, hn] at h; exact h.elim
    | exc _ _ => rw [hm, hn] at h; exact h.elim
    | ub => rw [hm, hn] at h; exact h.elim

theorem W.throw_eq {s t : Parser} (h : W x s t) (hm : x.cfg.mode = .throw) : t.err = s.err := by
  have h1 := h.msg (by simp [hm])
  have h2 := h.flag (by simp [hm])
  cases he : t.err; cases he' : s.err
  rw [he, he'] at h1 h2
  simp only at h1 h2
  rw [h1, h2]

theorem getNext_W {s t : Parser} (h : W x s t) (rs : List Req) : Eqw x (s.header, s.rawHeader) t.header (getNext x rs s) (getNext x rs t) := by
  by_cases hm : x.cfg.mode = .throw
  · have := fr_getNext x rs s t.header
    rw [← eqh h (h.throw_eq hm)] at this
    exact this.weak
  · have hg : getNext x rs = (parseRowIf x >>= fun _ => onRd Reader.update >>= fun _ => tail x rs) := rfl
    have hp : ∀ s, parseRowIf x s = if s.eof then .ok () s else onRd (Reader.parse x) s := by
      intro s
      unfold parseRowIf parseRow
      cases hc : x.cfg.mode with
      | throw => exact absurd hc hm
      | string => rfl
      | bool => rfl
    have key : ∀ (u v : Parser), W x u v → (u.header, u.rawHeader) = (s.header, s.rawHeader) → v.header = t.header →
        Eqw x (s.header, s.rawHeader) t.header ((onRd Reader.update >>= fun _ => tail x rs) u) ((onRd Reader.update >>= fun _ => tail x rs) v) := by
      intro u v hw h1 h2
      have e : ∀ u : Parser, onRd Reader.update u = .ok () { u with rd := { u.rd with cur := u.rd.next, next := u.rd.cur } } := fun _ => rfl
      rw [M.bind_of_ok (e u), M.bind_of_ok (e v)]
      have := tail_W (x := x) (s := { u with rd := { u.rd with cur := u.rd.next, next := u.rd.cur } })
        (t := { v with rd := { v.rd with cur := v.rd.next, next := v.rd.cur } }) ⟨by simp [hw.rd], hw.eof, hw.raw, hw.msg, hw.flag⟩ rs
      rw [← h1, ← h2]
      exact this.weak
    rw [hg, M.bind_apply, M.bind_apply, hp, hp]
    rw [show t.eof = s.eof from h.eof]
    by_cases he : s.eof = true
    · rw [if_pos he, if_pos he]
      exact key s t h rfl rfl
    · rw [if_neg he, if_neg he]
      unfold onRd
      rw [h.rd]
      cases Reader.parse x s.rd with
      | ok a r => exact key _ _ ⟨rfl, h.eof, h.raw, h.msg, h.flag⟩ rfl rfl
      | exc e r => exact ⟨rfl, rfl, rfl, ⟨rfl, h.eof, h.raw, h.msg, h.flag⟩⟩
      | ub => trivial
      | nofuel => trivial

theorem fr_valid {f : Bool → M Parser α} (hf : ∀ b, Fr (f b)) : Fr (M.get >>= fun s => f (s.valid x.cfg)) :=
  Fr.get (fun _ => hf _) fun _ _ => rfl

theorem fr_tryInvoke (x : Ctx) (v : List Val) (fn : Option (List Val → Option Bool)) : Fr (tryInvoke x v fn) := by
  unfold tryInvoke
  cases fn with
  | none => exact Fr.pure _
  | some f =>
    simp only
    split
    · exact Fr.bind (fr_handleError _ _) fun _ => Fr.pure _
    · exact Fr.pure _

/-- `try_next` behind its `get_next` -/
theorem fr_afterNext (x : Ctx) (fn : Option (List Val → Option Bool)) (v : List Val) : Fr (do
    let s ← M.get
    if s.valid x.cfg then
      let called ← tryInvoke x v fn
      let s ← M.get
      pure (if s.valid x.cfg then some v else none, called)
    else pure (none, false) : M Parser (Option (List Val) × Bool)) := by
  refine Fr.get (fun s => Fr.ite (Fr.bind (fr_tryInvoke x v fn) fun b => ?_) (Fr.pure _)) fun _ _ => rfl
  exact Fr.get (fun s => Fr.pure _) fun _ _ => rfl

theorem fr_trySame (x : Ctx) (rs : List Req) : Fr (trySame x rs) := by
  unfold trySame
  refine Fr.bind (fr_clearError _) fun _ => Fr.bind (Fr.onCur _) fun v => Fr.get (fun s => ?_) fun _ _ => rfl
  exact Fr.bind (Fr.ite (Fr.pure _) (fr_invalid x)) fun _ => Fr.pure _

theorem fr_orElse (x : Ctx) (a : Alt) : Fr (orElse x a) := by
  unfold orElse
  refine Fr.get (fun s => Fr.ite (Fr.pure _) (Fr.bind (fr_trySame x _) fun v => ?_)) fun _ _ => rfl
  exact fr_afterNext x a.fn v

theorem fr_orElses (x : Ctx) : ∀ as, Fr (orElses x as)
  | [] => Fr.pure _
  | a :: as => Fr.bind (fr_orElse x a) fun _ => Fr.bind (fr_orElses x as) fun _ => Fr.pure _

theorem tryChain_W {s t : Parser} (h : W x s t) (a : Alt) (as : List Alt) :
    Eqw x (s.header, s.rawHeader) t.header (tryChain x a as s) (tryChain x a as t) := by
  unfold tryChain tryNext
  refine Eqw.bind (Eqw.bind (getNext_W h a.reqs) fun v => fr_afterNext x a.fn v) fun r => ?_
  exact Fr.bind (fr_orElses x as) fun _ => Fr.pure _

/-! ## The header -/

/-- the names that `header()` returns for the raw header `raw` -/
def Names (x : Ctx) (raw : Bytes) (cols : List Bytes) : Prop :=
  ∃ sp, (∀ s, s.rawHeader = raw → strictSplit x s = .ok (some sp) s) ∧ ∀ t, columnsOf sp t = .ok cols t

theorem split_cases (hx : x.Setup) (raw : Bytes) :
    (∃ cols, Names x raw cols) ∨
    (x.cfg.mode ≠ .throw ∧ ∃ m, m ≠ [] ∧ ∀ s, s.rawHeader = raw → strictSplit x s = .ok none { s with err := s.err.set x.cfg.mode m }) ∨
    (x.cfg.mode = .throw ∧ ∃ e, ∀ s, s.rawHeader = raw → strictSplit x s = .exc e s) := by
  obtain ⟨T, hT⟩ := cutNul_append_nul raw []
  have hs : Holds ({ mem := raw ++ [NUL] } : Spl) (cutNul raw) T := ⟨hT, cutNul_nul _, rfl⟩
  have h := split_full (headerCfg_wf hx.wf) hx.delim hx.delim0 hs
  have hmode := headerCfg_mode x
  cases he : endError (headerCfg x) (cutNul raw).length (decodeRow (headerCfg x) x.delim (cutNul raw)).2 with
  | some m =>
    rw [he] at h
    obtain ⟨sp, hk, h⟩ := h
    by_cases hth : x.cfg.mode = .throw
    · rw [if_pos (hmode.trans hth)] at h
      refine .inr (.inr ⟨hth, x.fileName ++ bs ": failed header parsing: " ++ m, fun s hs => ?_⟩)
      unfold strictSplit
      rw [hs, h.1]
    · rw [if_neg (by rw [hmode]; exact hth)] at h
      have hv : sp.err.valid x.cfg.mode = false := by
        rw [h.2.1, hmode]; exact ErrSt.valid_set hth (endError_ne_nil he) _
      refine .inr (.inl ⟨hth, x.fileName ++ bs ": failed header parsing: " ++ sp.err.msg, ?_, fun s hs => ?_⟩)
      · intro e
        exact absurd (List.append_eq_nil_iff.mp (List.append_eq_nil_iff.mp e).1).2 (by decide)
      · unfold strictSplit
        rw [hs, h.1]
        simp only [hv, Bool.false_eq_true, if_false]
  | none =>
    rw [he] at h
    obtain ⟨sp, h1, hk, h2, _, h3, h4⟩ := h
    refine .inl ⟨sp.data.map fun p => textAt sp.mem p.1 p.2, sp, fun s hs => ?_, fun t => ?_⟩
    · unfold strictSplit
      rw [hs, h1]
      simp only [h2, hmode, ErrSt.valid_clear, if_true]
    · unfold columnsOf
      rw [if_pos fun p hp => ⟨(h3.inside p hp).1, Nat.le_of_lt (h3.inside p hp).2⟩]

/-- what is known of the header names that were split already -/
def H (x : Ctx) (raw : Bytes) (s : Parser) : Prop :=
  s.rawHeader = raw ∧ (s.header = [] ∨ ∃ cols, Names x raw cols ∧ cols.Nodup ∧ s.header = cols)

/-- with `throw_on_error` the header has no name twice -/
def Distinct (x : Ctx) (raw : Bytes) : Prop := x.cfg.mode = .throw → ∀ cols, Names x raw cols → cols.Nodup

theorem addHeader_new : ∀ (fs : List Bytes) (s : Parser), (s.header ++ fs).Nodup →
    addHeader x fs s = .ok () { s with header := s.header ++ fs }
  | [], s, _ => by simp [addHeader]
  | f :: fs, s, h => by
    unfold addHeader
    have hf : f ∉ s.header := by
      intro hm
      have := List.nodup_append.mp h
      exact this.2.2 f hm f (by simp) rfl
    rw [M.get_bind, if_neg hf, M.modify_bind, addHeader_new fs _ (by simpa using h)]
    simp

theorem addHeader_twice (hm : x.cfg.mode ≠ .throw) : ∀ (fs : List Bytes) (s : Parser), s.header.Nodup → ¬ (s.header ++ fs).Nodup →
    ∃ m, m ≠ [] ∧ addHeader x fs s = .ok () { s with err := s.err.set x.cfg.mode m, header := [] }
  | [], s, h, h' => absurd (by simpa using h) h'
  | f :: fs, s, h, h' => by
    unfold addHeader
    by_cases hf : f ∈ s.header
    · refine ⟨x.fileName ++ bs ": header contains duplicate: " ++ f, ?_, ?_⟩
      · intro e
        exact absurd (List.append_eq_nil_iff.mp (List.append_eq_nil_iff.mp e).1).2 (by decide)
      · rw [M.get_bind, if_pos hf]
        unfold handleError
        cases hc : x.cfg.mode with
        | throw => exact absurd hc hm
        | string => rfl
        | bool => rfl
    · obtain ⟨m, h1, h2⟩ := addHeader_twice hm fs { s with header := s.header ++ [f] } (by
        rw [List.nodup_append]
        exact ⟨h, by simp, fun a ha b hb => by simp at hb; subst hb; exact fun e => hf (e ▸ ha)⟩) (by simpa using h')
      exact ⟨m, h1, by rw [M.get_bind, if_neg hf, M.modify_bind, h2]⟩

/-- a call that comes back, and changes nothing but the error and the header names -/
def Soft (x : Ctx) (s : Parser) : Res Parser α → Prop
  | .ok _ t => W x s t
  | .exc _ t => W x s t
  | _ => False

theorem Soft.bind {s u : Parser} {m : M Parser α} {f : α → M Parser β} (h : Soft x s (m u)) (hf : ∀ a t, W x s t → Soft x s (f a t)) :
    Soft x s ((m >>= f) u) := by
  rw [M.bind_apply]
  cases hm : m u with
  | ok a t => rw [hm] at h; exact hf _ _ h
  | exc e t => rw [hm] at h; exact h
  | ub => rw [hm] at h; exact h.elim
  | nofuel => rw [hm] at h; exact h.elim

theorem soft_handleError (s u : Parser) (h : W x s u) (m : Bytes) : Soft x s (handleError x.cfg m u) := by
  have := h.trans (W.of_set u m u.header)
  unfold handleError
  cases hc : x.cfg.mode with
  | throw => exact h
  | string => rw [hc] at this; exact this
  | bool => rw [hc] at this; exact this

theorem soft_addHeader : ∀ (fs : List Bytes) {s u : Parser}, W x s u → Soft x s (addHeader x fs u)
  | [], s, u, h => h
  | f :: fs, s, u, h => by
    unfold addHeader
    rw [M.get_bind]
    by_cases hf : f ∈ u.header
    · rw [if_pos hf]
      exact Soft.bind (soft_handleError s u h _) fun _ t ht => ⟨ht.rd, ht.eof, ht.raw, ht.msg, ht.flag⟩
    · rw [if_neg hf, M.modify_bind]
      exact soft_addHeader fs ⟨h.rd, h.eof, h.raw, h.msg, h.flag⟩

theorem soft_strictSplit (hx : x.Setup) {s u : Parser} (h : W x s u) :
    Soft x s (strictSplit x u) ∧ ∀ sp t, strictSplit x u = .ok (some sp) t → ∃ cols, ∀ v, columnsOf sp v = .ok cols v := by
  rcases split_cases hx u.rawHeader with ⟨cols, sp, h1, h2⟩ | ⟨_, m, _, h1⟩ | ⟨_, e, h1⟩
  · rw [h1 u rfl]
    exact ⟨h, fun sp' t e => by cases e; exact ⟨cols, h2⟩⟩
  · rw [h1 u rfl]
    exact ⟨h.trans (W.of_set u m u.header), fun sp' t e => by cases e⟩
  · rw [h1 u rfl]
    exact ⟨h, fun sp' t e => by cases e⟩

theorem soft_splitHeaderData (hx : x.Setup) {s u : Parser} (h : W x s u) : Soft x s (splitHeaderData x u) := by
  obtain ⟨h1, h2⟩ := soft_strictSplit hx h
  unfold splitHeaderData
  rw [M.bind_apply]
  cases hm : strictSplit x u with
  | ok a t =>
    rw [hm] at h1
    cases a with
    | none => exact h1
    | some sp =>
      obtain ⟨cols, h3⟩ := h2 sp t hm
      simp only
      rw [M.bind_of_ok (h3 t)]
      exact soft_addHeader cols h1
  | exc e t => rw [hm] at h1; exact h1
  | ub => rw [hm] at h1; exact h1.elim
  | nofuel => rw [hm] at h1; exact h1.elim

/-- a question comes back, and changes nothing but the error and the header names -/
theorem asks_soft (hx : x.Setup) {op : Op} (ha : op.Asks = true) (s : Parser) : Soft x s (op.exec x s) := by
  have hc := W.of_clear (x := x) s
  cases op with
  | header =>
    show Soft x s ((getHeader x >>= fun l => pure (Ret.names l)) s)
    refine Soft.bind ?_ fun _ _ h => h
    unfold getHeader
    obtain ⟨h1, h2⟩ := soft_strictSplit hx hc
    show Soft x s ((M.modify _ >>= _) s)
    rw [M.modify_bind, M.bind_apply]
    cases hm : strictSplit x { s with err := s.err.clear x.cfg.mode } with
    | ok a t =>
      rw [hm] at h1
      cases a with
      | none => exact h1
      | some sp =>
        obtain ⟨cols, h3⟩ := h2 sp t hm
        simp only
        rw [h3 t]
        exact h1
    | exc e t => rw [hm] at h1; exact h1
    | ub => rw [hm] at h1; exact h1.elim
    | nofuel => rw [hm] at h1; exact h1.elim
  | rawHeader => exact W.refl s
  | fieldExists f =>
    show Soft x s ((fieldExists x f >>= fun b => pure (Ret.flag b)) s)
    refine Soft.bind ?_ fun _ _ h => h
    unfold fieldExists
    show Soft x s ((M.modify _ >>= _) s)
    rw [M.modify_bind]
    refine Soft.bind (m := splitHeaderDataIf x fun s => s.header.isEmpty) ?_ fun _ t h => ?_
    · unfold splitHeaderDataIf
      split
      · exact soft_splitHeaderData hx hc
      · exact hc
    · rw [M.get_bind]
      split <;> exact h
  | getNext _ => cases ha
  | ignoreNext => cases ha
  | useFields _ => cases ha
  | chain _ _ => cases ha

/-- splitting the header, if it was not split before and has no name twice, or exceptions are off -/
theorem splitHeaderData_spec (hx : x.Setup) {raw : Bytes} (hd : Distinct x raw) {s : Parser} (hr : s.rawHeader = raw) (hh : s.header = []) :
    (∃ cols, Names x raw cols ∧ cols.Nodup ∧ splitHeaderData x s = .ok () { s with header := cols }) ∨
    ((∀ cols, Names x raw cols → ¬ cols.Nodup) ∧
      ((∃ e, splitHeaderData x s = .ok () { s with err := e, header := [] }) ∨ ∃ e, splitHeaderData x s = .exc e s)) := by
  have hone : ∀ {c c' : List Bytes}, Names x raw c → Names x raw c' → c = c' := by
    rintro c c' ⟨sp, h1, h2⟩ ⟨sp', h1', h2'⟩
    have := (h1 s hr).symm.trans (h1' s hr)
    cases this
    have := (h2 s).symm.trans (h2' s)
    cases this
    rfl
  unfold splitHeaderData
  rcases split_cases hx raw with ⟨cols, hn⟩ | ⟨_, m, _, h1⟩ | ⟨hth, e, h1⟩
  · obtain ⟨sp, h1, h2⟩ := id hn
    rw [M.bind_of_ok (h1 s hr)]
    simp only
    rw [M.bind_of_ok (h2 s)]
    by_cases hnd : cols.Nodup
    · left
      refine ⟨cols, hn, hnd, ?_⟩
      rw [addHeader_new cols s (by rw [hh]; simpa using hnd), hh]
      rfl
    · right
      refine ⟨fun c hc => by rw [hone hc hn]; exact hnd, .inl ?_⟩
      have hm : x.cfg.mode ≠ .throw := fun hm => hnd (hd hm cols hn)
      obtain ⟨m, _, h3⟩ := addHeader_twice hm cols s (by rw [hh]; simp) (by rw [hh]; simpa using hnd)
      exact ⟨_, h3⟩
  · right
    refine ⟨fun c hc => ?_, .inl ?_⟩
    · obtain ⟨sp, h, _⟩ := hc
      have := (h1 s hr).symm.trans (h s hr)
      cases this
    · rw [M.bind_of_ok (h1 s hr)]
      exact ⟨s.err.set x.cfg.mode m, by simp [← hh]⟩
  · right
    refine ⟨fun c hc => ?_, .inr ⟨e, ?_⟩⟩
    · obtain ⟨sp, h, _⟩ := hc
      have := (h1 s hr).symm.trans (h s hr)
      cases this
    · rw [M.bind_of_exc (h1 s hr)]

/-- a call that keeps what is known of the header names -/
def KeepsH (x : Ctx) (raw : Bytes) : Res Parser α → Prop := Part (H x raw)

theorem splitIf_H (hx : x.Setup) {raw : Bytes} (hd : Distinct x raw) {s : Parser} (h : H x raw s) {p : Parser → Bool}
    (hp : p s = true → s.header = []) : Part (H x raw) (splitHeaderDataIf x p s) := by
  unfold splitHeaderDataIf
  by_cases hps : p s = true
  · rw [if_pos hps]
    rcases splitHeaderData_spec hx hd h.1 (hp hps) with ⟨cols, h1, h2, h3⟩ | ⟨_, ⟨e, h3⟩ | ⟨e, h3⟩⟩
    · rw [h3]; exact ⟨h.1, .inr ⟨cols, h1, h2, rfl⟩⟩
    · rw [h3]; exact ⟨h.1, .inl rfl⟩
    · rw [h3]; exact h
  · rw [if_neg hps]; exact h

theorem H.err {raw : Bytes} {s : Parser} (h : H x raw s) (e : ErrSt) : H x raw { s with err := e } := h

theorem handleError_H {raw : Bytes} {s : Parser} (h : H x raw s) (m : Bytes) : Part (H x raw) (handleError x.cfg m s) := by
  unfold handleError
  cases x.cfg.mode <;> exact h

theorem asks_H (hx : x.Setup) {raw : Bytes} (hd : Distinct x raw) {op : Op} (ha : op.Asks = true) {s : Parser} (h : H x raw s) :
    Part (H x raw) (op.exec x s) := by
  cases op with
  | header =>
    show Part (H x raw) ((getHeader x >>= fun l => pure (Ret.names l)) s)
    refine Part.bind (P := H x raw) ?_ fun _ _ h => h
    unfold getHeader
    show Part (H x raw) ((M.modify _ >>= _) s)
    rw [M.modify_bind]
    rcases split_cases hx raw with ⟨cols, sp, h1, h2⟩ | ⟨_, m, _, h1⟩ | ⟨_, e, h1⟩
    · rw [M.bind_of_ok (h1 { s with err := s.err.clear x.cfg.mode } h.1)]
      simp only
      rw [h2]; exact h
    · rw [M.bind_of_ok (h1 { s with err := s.err.clear x.cfg.mode } h.1)]; exact h
    · rw [M.bind_of_exc (h1 { s with err := s.err.clear x.cfg.mode } h.1)]; exact h
  | rawHeader => exact h
  | fieldExists f =>
    show Part (H x raw) ((fieldExists x f >>= fun b => pure (Ret.flag b)) s)
    refine Part.bind (P := H x raw) ?_ fun _ _ h => h
    unfold fieldExists
    show Part (H x raw) ((M.modify _ >>= _) s)
    rw [M.modify_bind]
    refine Part.bind (splitIf_H hx hd (h.err _) (by simp)) fun _ t h => ?_
    rw [M.get_bind]
    split <;> exact h
  | getNext _ => cases ha
  | ignoreNext => cases ha
  | useFields _ => cases ha
  | chain _ _ => cases ha

theorem mapFields_H {raw : Bytes} (all : List Bytes) : ∀ (fs : List Bytes) {s : Parser}, H x raw s → Part (H x raw) (mapFields x all fs s)
  | [], s, h => h
  | f :: fs, s, h => by
    unfold mapFields
    split
    · exact Part.bind (handleError_H h _) fun _ _ h => h
    · rw [M.get_bind]
      cases s.headerIndex f with
      | none => exact Part.bind (handleError_H h _) fun _ _ h => h
      | some i =>
        refine Part.bind (mapFields_H all fs h) fun r _ h => ?_
        cases r <;> exact h

/-- `use_fields` behind the splitting of the header -/
def useTail (x : Ctx) (fs : List Bytes) : M Parser Unit := do
  let s ← M.get
  if !s.valid x.cfg then pure ()
  else if fs = [] then handleError x.cfg (bs "received invalid argument for 'use_fields'")
  else
    match (← mapFields x fs fs) with
    | none => pure ()
    | some sel =>
      setMapping sel
      let s ← M.get
      if s.line = 0 then
        let _ ← ignoreNext x
        pure ()
      else pure ()

theorem useTail_H {raw : Bytes} (fs : List Bytes) {s : Parser} (h : H x raw s) : Part (H x raw) (useTail x fs s) := by
  unfold useTail
  rw [M.get_bind]
  split
  · exact h
  · split
    · exact handleError_H h _
    · refine Part.bind (mapFields_H fs fs h) fun r t h => ?_
      cases r with
      | none => exact h
      | some sel =>
        show Part (H x raw) ((setMapping sel >>= _) t)
        unfold setMapping
        rw [M.modify_bind, M.get_bind]
        split
        · refine Part.bind (P := H x raw) ?_ fun _ _ h => h
          unfold ignoreNext onRd
          split
          · exact h
          · exact h
          · trivial
          · trivial
        · exact h

theorem useFields_H (hx : x.Setup) {raw : Bytes} (hd : Distinct x raw) (fs : List Bytes) {s : Parser} (h : H x raw s) :
    Part (H x raw) (useFields x fs s) := by
  show Part (H x raw) ((M.modify (fun s => { s with err := s.err.clear x.cfg.mode }) >>= fun _ =>
    (splitHeaderDataIf x fun s => s.header.isEmpty && !s.eof) >>= fun _ => useTail x fs) s)
  rw [M.modify_bind]
  exact Part.bind (splitIf_H hx hd (h.err _) (by simp_all)) fun _ t h => useTail_H fs h

/-- before the end of the input, `use_fields` does the same whether the header was split before or not -/
theorem useFields_W (hx : x.Setup) {raw : Bytes} (hd : Distinct x raw) (fs : List Bytes) {s t : Parser} (h : W x s t) (hs : H x raw s)
    (ht : H x raw t) (he : s.eof = false) : useFields x fs s = useFields x fs t := by
  have hu : ∀ s : Parser, useFields x fs s = ((splitHeaderDataIf x fun s => s.header.isEmpty && !s.eof) >>= fun _ => useTail x fs)
      { s with err := s.err.clear x.cfg.mode } := fun _ => rfl
  rw [hu, hu, h.clear]
  have hts : ({ t with err := s.err.clear x.cfg.mode } : Parser) = { s with err := s.err.clear x.cfg.mode, header := t.header } := by
    obtain ⟨e, r, hdr, rw', eo⟩ := s
    obtain ⟨e', r', hdr', rw'', eo'⟩ := t
    have h1 := h.rd; have h2 := h.eof; have h3 := h.raw
    simp only at h1 h2 h3
    subst h1 h2 h3
    rfl
  rw [hts]
  by_cases hh : t.header = s.header
  · rw [hh]
  · -- one of them is split, the other not
    have key : ∀ {cols : List Bytes}, Names x raw cols → cols.Nodup →
        splitHeaderDataIf x (fun s => s.header.isEmpty && !s.eof) { s with err := s.err.clear x.cfg.mode, header := [] } =
          .ok () { s with err := s.err.clear x.cfg.mode, header := cols } := by
      intro cols hn hnd
      unfold splitHeaderDataIf
      rw [if_pos (by simp [he])]
      rcases splitHeaderData_spec (s := { s with err := s.err.clear x.cfg.mode, header := [] }) hx hd hs.1 rfl with
        ⟨cols', h1, h2, h3⟩ | ⟨h1, _⟩
      · obtain ⟨sp, k1, k2⟩ := hn
        obtain ⟨sp', k1', k2'⟩ := h1
        have := (k1 s hs.1).symm.trans (k1' s hs.1)
        cases this
        have := (k2 s).symm.trans (k2' s)
        cases this
        exact h3
      · exact absurd hnd (h1 cols hn)
    have key2 : ∀ {cols : List Bytes}, cols ≠ [] →
        splitHeaderDataIf x (fun s => s.header.isEmpty && !s.eof) { s with err := s.err.clear x.cfg.mode, header := cols } =
          .ok () { s with err := s.err.clear x.cfg.mode, header := cols } := by
      intro cols hne
      unfold splitHeaderDataIf
      rw [if_neg (by simp [hne])]
    have hss : ({ s with err := s.err.clear x.cfg.mode } : Parser) = { s with err := s.err.clear x.cfg.mode, header := s.header } := rfl
    rw [hss]
    rcases hs.2 with h1 | ⟨cols, h1, h2, h3⟩
    · rcases ht.2 with k1 | ⟨cols', k1, k2, k3⟩
      · exact absurd (k1.trans h1.symm) hh
      · rw [h1, k3, M.bind_of_ok (key k1 k2), M.bind_of_ok (key2 (by rintro rfl; exact hh (k3.trans h1.symm)))]
    · rcases ht.2 with k1 | ⟨cols', k1, k2, k3⟩
      · rw [h3, k1, M.bind_of_ok (key h1 h2), M.bind_of_ok (key2 (by rintro rfl; exact hh (k1.trans h3.symm)))]
      · obtain ⟨sp, a1, a2⟩ := h1
        obtain ⟨sp', b1, b2⟩ := k1
        have := (a1 s hs.1).symm.trans (b1 s hs.1)
        cases this
        have := (a2 s).symm.trans (b2 s)
        cases this
        exact absurd (k3.trans h3.symm) hh

/-! ## The other calls -/

theorem Fr.keeps {m : M Parser α} (hm : Fr m) (s : Parser) :
    Part (fun t => (t.header, t.rawHeader) = (s.header, s.rawHeader)) (m s) := by
  have := hm s s.header
  cases h : m s with
  | ok a t => rw [h] at this; exact this.2.1
  | exc a t => rw [h] at this; exact this.2.1
  | ub => trivial
  | nofuel => trivial

theorem fr_exec {op : Op} (ha : op.Asks = false) (hu : ∀ fs, op ≠ .useFields fs) : Fr (op.exec x) := by
  cases op with
  | header => cases ha
  | rawHeader => cases ha
  | fieldExists f => cases ha
  | getNext rs => exact Fr.bind (fr_getNext x rs) fun v => Fr.get (fun s => Fr.pure _) fun _ _ => rfl
  | ignoreNext => exact Fr.bind (Fr.onRd _) fun v => Fr.pure _
  | useFields fs => exact absurd rfl (hu fs)
  | chain a as =>
    refine Fr.get (fun s => Fr.ite (Fr.pure _) (Fr.bind ?_ fun _ => Fr.pure _)) fun _ _ => rfl
    unfold tryChain tryNext
    exact Fr.bind (Fr.bind (fr_getNext x a.reqs) fun v => fr_afterNext x a.fn v) fun r => Fr.bind (fr_orElses x as) fun _ => Fr.pure _

theorem exec_H (hx : x.Setup) {raw : Bytes} (hd : Distinct x raw) {op : Op} {s : Parser} (h : H x raw s) :
    Part (H x raw) (op.exec x s) := by
  by_cases ha : op.Asks = true
  · exact asks_H hx hd ha h
  · rw [Bool.not_eq_true] at ha
    by_cases hu : ∃ fs, op = .useFields fs
    · obtain ⟨fs, rfl⟩ := hu
      exact Part.bind (P := H x raw) (useFields_H hx hd fs h) fun _ _ h => h
    · refine (Fr.keeps (fr_exec ha fun fs e => hu ⟨fs, e⟩) s).mono fun t ht => ?_
      have h1 := congrArg Prod.fst ht
      have h2 := congrArg Prod.snd ht
      simp only at h1 h2
      unfold H
      rw [h1, h2]
      exact h

/-- the same result, and states that are equal up to header names and an old error; the error is the same too, if the call set it -/
def Out (x : Ctx) (op : Op) : Res Parser Ret → Res Parser Ret → Prop
  | .ok r s, .ok r' t => r = r' ∧ W x s t ∧ (op.Judges r → t.err = s.err)
  | .exc e s, .exc f t => e = f ∧ W x s t
  | .ub, .ub => True
  | .nofuel, .nofuel => True
  | _, _ => False

theorem Eqw.out {op : Op} {h1 : List Bytes × Bytes} {h2 : List Bytes} {r1 r2 : Res Parser Ret} (h : Eqw x h1 h2 r1 r2) : Out x op r1 r2 := by
  cases r1 <;> cases r2 <;> try exact h
  · obtain ⟨h1, _, rfl⟩ := h
    exact ⟨h1, ⟨rfl, rfl, rfl, fun _ => rfl, fun _ => rfl⟩, fun _ => rfl⟩
  · exact ⟨h.1, h.2.2.2⟩

theorem out_refl (op : Op) (r : Res Parser Ret) : Out x op r r := by
  cases r with
  | ok a s => exact ⟨rfl, W.refl s, fun _ => rfl⟩
  | exc a s => exact ⟨rfl, W.refl s⟩
  | ub => trivial
  | nofuel => trivial

theorem exec_W (hx : x.Setup) {s t : Parser} (h : W x s t) {op : Op} (ha : op.Asks = false)
    (hu : ∀ fs, op = .useFields fs → s.eof = false ∧ Distinct x s.rawHeader ∧ H x s.rawHeader s ∧ H x s.rawHeader t) :
    Out x op (op.exec x s) (op.exec x t) := by
  cases op with
  | header => cases ha
  | rawHeader => cases ha
  | fieldExists f => cases ha
  | getNext rs =>
    exact (Eqw.bind (f := fun v => M.get >>= fun s => pure (.row (if s.valid x.cfg then some v else none)))
      (getNext_W h rs) fun v => Fr.get (fun s => Fr.pure _) fun _ _ => rfl).out
  | ignoreNext =>
    show Out x .ignoreNext ((ignoreNext x >>= fun b => pure (Ret.flag b)) s) ((ignoreNext x >>= fun b => pure (Ret.flag b)) t)
    rw [M.bind_apply, M.bind_apply]
    unfold ignoreNext onRd
    rw [h.rd]
    cases Reader.readNext x s.rd with
    | ok a r => exact ⟨rfl, ⟨rfl, h.eof, h.raw, h.msg, h.flag⟩, fun j => absurd rfl j.1⟩
    | exc a r => exact ⟨rfl, ⟨rfl, h.eof, h.raw, h.msg, h.flag⟩⟩
    | ub => trivial
    | nofuel => trivial
  | useFields fs =>
    obtain ⟨he, hd, h1, h2⟩ := hu fs rfl
    show Out x (.useFields fs) ((useFields x fs >>= fun _ => pure Ret.unit) s) ((useFields x fs >>= fun _ => pure Ret.unit) t)
    rw [M.bind_apply, M.bind_apply, useFields_W hx hd fs h h1 h2 he]
    exact out_refl _ _
  | chain a as =>
    show Out x (.chain a as) ((M.get >>= fun s => if s.eof then pure (.opts []) else tryChain x a as >>= fun l => pure (.opts l)) s)
      ((M.get >>= fun s => if s.eof then pure (.opts []) else tryChain x a as >>= fun l => pure (.opts l)) t)
    rw [M.get_bind, M.get_bind, h.eof]
    by_cases he : s.eof = true
    · rw [if_pos he]
      exact ⟨rfl, h, fun j => absurd rfl j.2.1⟩
    · rw [if_neg he]
      exact (Eqw.bind (tryChain_W h a as) fun v => Fr.pure _).out

theorem Out.done {op : Op} {s t : Parser} (h : Out x op (op.exec x s) (op.exec x t)) :
    (step x op s = none ∧ step x op t = none) ∨
    ∃ o u o' v, step x op s = some (o, u) ∧ step x op t = some (o', v) ∧ SameDone op o o' ∧ W x u v := by
  unfold step
  cases h1 : op.exec x s with
  | ok r u =>
    cases h2 : op.exec x t with
    | ok r' v =>
      rw [h1, h2] at h
      obtain ⟨rfl, hw, he⟩ := h
      refine .inr ⟨_, _, _, _, rfl, rfl, ⟨rfl, hw.eof.symm, ?_, ?_, fun j => ?_, fun j => ?_⟩, hw⟩
      · simp only [observe, line, hw.rd]
      · simp only [observe, position, hw.rd]
      · simp only [observe, valid, he j]
      · simp only [observe, he j]
    | exc _ _ => rw [h1, h2] at h; exact h.elim
    | ub => rw [h1, h2] at h; exact h.elim
    | nofuel => rw [h1, h2] at h; exact h.elim
  | exc e u =>
    cases h2 : op.exec x t with
    | exc f v =>
      rw [h1, h2] at h
      obtain ⟨rfl, hw⟩ := h
      refine .inr ⟨_, _, _, _, rfl, rfl, ⟨rfl, hw.eof.symm, ?_, ?_, fun j => absurd rfl (j.2.2 _), fun j => absurd rfl (j.2.2 _)⟩, hw⟩
      · simp only [observe, line, hw.rd]
      · simp only [observe, position, hw.rd]
    | ok _ _ => rw [h1, h2] at h; exact h.elim
    | ub => rw [h1, h2] at h; exact h.elim
    | nofuel => rw [h1, h2] at h; exact h.elim
  | ub =>
    cases h2 : op.exec x t with
    | ub => exact .inl ⟨rfl, rfl⟩
    | ok _ _ => rw [h1, h2] at h; exact h.elim
    | exc _ _ => rw [h1, h2] at h; exact h.elim
    | nofuel => rw [h1, h2] at h; exact h.elim
  | nofuel =>
    cases h2 : op.exec x t with
    | nofuel => exact .inl ⟨rfl, rfl⟩
    | ok _ _ => rw [h1, h2] at h; exact h.elim
    | exc _ _ => rw [h1, h2] at h; exact h.elim
    | ub => rw [h1, h2] at h; exact h.elim

theorem step_part {P : Parser → Prop} {op : Op} {s u : Parser} {o : Obs} (h : Part P (op.exec x s)) (hr : step x op s = some (o, u)) : P u := by
  unfold step at hr
  cases h1 : op.exec x s with
  | ok r v => rw [h1] at h hr; cases hr; exact h
  | exc r v => rw [h1] at h hr; cases hr; exact h
  | ub => rw [h1] at hr; cases hr
  | nofuel => rw [h1] at hr; cases hr

theorem asks_step (hx : x.Setup) {op : Op} (ha : op.Asks = true) (s : Parser) : ∃ o u, step x op s = some (o, u) ∧ W x s u := by
  have := asks_soft hx ha s
  unfold step
  cases h1 : op.exec x s with
  | ok r v => rw [h1] at this; exact ⟨_, _, rfl, this⟩
  | exc r v => rw [h1] at this; exact ⟨_, _, rfl, this⟩
  | ub => rw [h1] at this; exact this.elim
  | nofuel => rw [h1] at this; exact this.elim

/-- the run with the questions, and the run without them -/
theorem runs (hx : x.Setup) {raw : Bytes} : ∀ (ops : List Op) {s t : Parser}, W x s t →
    ((∀ fs, Op.useFields fs ∉ ops) ∨ (UsesEarly x ops s ∧ Distinct x raw ∧ H x raw s ∧ H x raw t)) →
    (run x ops s = none ∧ run x (ops.filter (!·.Asks)) t = none) ∨
    ∃ os u os' v, run x ops s = some (os, u) ∧ run x (ops.filter (!·.Asks)) t = some (os', v) ∧
      (deeds ops os).map (·.1) = ops.filter (!·.Asks) ∧ (deeds ops os).length = os'.length ∧
      ∀ p ∈ (deeds ops os).zip os', SameDone p.1.1 p.1.2 p.2
  | [], s, t, _, _ => .inr ⟨[], s, [], t, rfl, rfl, rfl, rfl, by simp [deeds]⟩
  | op :: ops, s, t, h, hu => by
    by_cases ha : op.Asks = true
    · obtain ⟨o, s1, h1, hw⟩ := asks_step hx ha s
      have hf : (op :: ops).filter (!·.Asks) = ops.filter (!·.Asks) := by simp [ha]
      have hrun : run x (op :: ops) s = match run x ops s1 with
          | none => none
          | some (os, u) => some (o :: os, u) := by
        show (match step x op s with | none => none | some (o, s') => match run x ops s' with | none => none | some (os, s'') => some (o :: os, s'')) = _
        rw [h1]
      rcases runs hx ops (hw.symm.trans h) (hu.imp (fun h fs hm => h fs (by simp [hm]))
        fun ⟨k1, k2, k3, k4⟩ => ⟨k1.2 _ _ h1, k2, step_part (asks_H hx k2 ha k3) h1, k4⟩) with
        ⟨h2, h3⟩ | ⟨os, u, os', v, h2, h3, h4, h5, h6⟩
      · left
        rw [hrun, h2, hf]
        exact ⟨rfl, h3⟩
      · right
        have hd : deeds (op :: ops) (o :: os) = deeds ops os := by simp [deeds, ha]
        refine ⟨o :: os, u, os', v, ?_, ?_, ?_, ?_, ?_⟩
        · rw [hrun, h2]
        · rw [hf]; exact h3
        · rw [hd, hf]; exact h4
        · rw [hd]; exact h5
        · rw [hd]; exact h6
    · rw [Bool.not_eq_true] at ha
      have hf : (op :: ops).filter (!·.Asks) = op :: ops.filter (!·.Asks) := by simp [ha]
      have hout := exec_W hx h ha fun fs e => by
        rcases hu with h1 | ⟨k1, k2, k3, k4⟩
        · exact absurd (by simp [e]) (h1 fs)
        · have := k3.1
          rw [this]
          exact ⟨k1.1 fs e, k2, k3, k4⟩
      rw [hf]
      show ((match step x op s with | none => none | some (o, s') => match run x ops s' with | none => none | some (os, s'') => some (o :: os, s'')) = none ∧
        (match step x op t with | none => none | some (o, s') => match run x (ops.filter (!·.Asks)) s' with | none => none | some (os, s'') => some (o :: os, s'')) = none) ∨
        ∃ os u os' v, (match step x op s with | none => none | some (o, s') => match run x ops s' with | none => none | some (os, s'') => some (o :: os, s'')) = some (os, u) ∧
        (match step x op t with | none => none | some (o, s') => match run x (ops.filter (!·.Asks)) s' with | none => none | some (os, s'') => some (o :: os, s'')) = some (os', v) ∧ _
      rcases hout.done with ⟨h1, h2⟩ | ⟨o, s1, o', t1, h1, h2, h3, h4⟩
      · left; rw [h1, h2]; exact ⟨rfl, rfl⟩
      · rw [h1, h2]
        simp only
        rcases runs hx ops h4 (hu.imp (fun h fs hm => h fs (by simp [hm]))
          fun ⟨k1, k2, k3, k4⟩ => ⟨k1.2 _ _ h1, k2, step_part (exec_H hx k2 k3) h1, step_part (exec_H hx k2 k4) h2⟩) with
          ⟨h5, h6⟩ | ⟨os, u, os', v, h5, h6, h7, h8, h9⟩
        · left; rw [h5, h6]; exact ⟨rfl, rfl⟩
        · right
          have hd : deeds (op :: ops) (o :: os) = (op, o) :: deeds ops os := by simp [deeds, ha]
          refine ⟨o :: os, u, o' :: os', v, ?_, ?_, ?_, ?_, ?_⟩
          · rw [h5]
          · rw [h6]
          · rw [hd]; simp [h7]
          · rw [hd]; simp [h8]
          · rw [hd]
            intro p hp
            rcases List.mem_cons.mp hp with rfl | hp
            · exact h3
            · exact h9 p hp

/-! ## A new parser -/

theorem firstLine_header (x : Ctx) : Part (fun s => s.header = []) (firstLine x {}) := by
  unfold firstLine
  refine Part.bind (P := fun s : Parser => s.header = []) ?_ fun _ t h => ?_
  · exact (Fr.keeps (fr_readLine x) {}).mono fun t h => congrArg Prod.fst h
  · split
    · refine Part.bind (P := fun s : Parser => s.header = []) ?_ fun _ _ h => h
      exact (Fr.keeps (Fr.onRd _) t).mono fun t' h' => (congrArg Prod.fst h').trans h
    · refine Part.bind (P := fun s : Parser => s.header = []) ?_ fun _ _ h => h
      exact (Fr.keeps (Fr.onRd _) t).mono fun t' h' => (congrArg Prod.fst h').trans h

theorem failed_header (x : Ctx) (m : Bytes) :
    Part (fun s => s.header = []) ((handleError x.cfg m >>= fun _ => M.modify fun s => { s with eof := true }) ({} : Parser)) := by
  refine Part.bind (P := fun s : Parser => s.header = []) ?_ fun _ _ h => h
  exact (Fr.keeps (fr_handleError x.cfg m) {}).mono fun t h => congrArg Prod.fst h

theorem created_header {s : Parser} (h : Created x s) : s.header = [] := by
  have key : ∀ {m : M Parser Unit}, Part (fun s => s.header = []) (m {}) → m {} = .ok () s → s.header = [] := by
    intro m h1 h2
    rw [h2] at h1
    exact h1
  cases h with
  | file hs h =>
    refine key ?_ h
    unfold newFile
    rw [hs]
    exact firstLine_header x
  | missing hs h =>
    refine key ?_ h
    unfold newFile
    rw [hs]
    exact failed_header x _
  | buffer hs h =>
    refine key ?_ h
    unfold newBuffer
    rw [hs]
    rename_i p n
    cases p with
    | none => exact failed_header x _
    | some d => exact firstLine_header x

theorem distinct_of {s : Parser} (hn : x.cfg.mode = .throw → ∀ l t, getHeader x s = .ok l t → l.Nodup) : Distinct x s.rawHeader := by
  intro hm cols ⟨sp, h1, h2⟩
  refine hn hm cols { s with err := s.err.clear x.cfg.mode } ?_
  unfold getHeader
  show (M.modify _ >>= _) s = _
  rw [M.modify_bind, M.bind_of_ok (h1 { s with err := s.err.clear x.cfg.mode } rfl)]
  exact h2 _

end Quest

/-- C77: `header()`, `raw_header()` and `field_exists(...)` may be asked anywhere among the calls of a parser; the other calls do not
notice: each of them returns or throws what it would have returned or thrown had nothing been asked, and leaves the same `eof()`,
`line()`, `position()`, and (where they speak of that call) `valid()` and `error_msg()`.  The whole runs even have undefined
behaviour together.  For `use_fields` it is needed that it is called before the end of the input is reached, and with
`throw_on_error` that the header names no column twice (`C35_at_end_of_input`, `C35_throw_after_duplicate` show why). -/
theorem C77_questions_change_nothing_else_partial {x : Ctx} (hx : x.Setup) {s : Parser} (hs : Parser.Created x s) (ops : List Op)
    (hu : (∀ fs, Op.useFields fs ∉ ops) ∨
      (s.UsesEarly x ops ∧ (x.cfg.mode = .throw → ∀ l t, Parser.getHeader x s = .ok l t → l.Nodup))) :
    (Parser.run x ops s = none ∧ Parser.run x (ops.filter (!·.Asks)) s = none) ∨
    ∃ os u os' v, Parser.run x ops s = some (os, u) ∧ Parser.run x (ops.filter (!·.Asks)) s = some (os', v) ∧
      (deeds ops os).map (·.1) = ops.filter (!·.Asks) ∧ (deeds ops os).length = os'.length ∧
      ∀ p ∈ (deeds ops os).zip os', SameDone p.1.1 p.1.2 p.2 := by
  have hh : Quest.H x s.rawHeader s := ⟨rfl, .inl (Quest.created_header hs)⟩
  exact Quest.runs hx ops (Quest.W.refl s) (hu.imp id fun ⟨h1, h2⟩ => ⟨h1, Quest.distinct_of h2, hh, hh⟩)

/-- without `use_fields`, no condition at all is left -/
theorem C77_questions_among_reads {x : Ctx} (hx : x.Setup) {s : Parser} (hs : Parser.Created x s) (ops : List Op)
    (hu : ∀ fs, Op.useFields fs ∉ ops) {os : List Obs} {u : Parser} (hr : Parser.run x ops s = some (os, u)) :
    ∃ os' v, Parser.run x (ops.filter (!·.Asks)) s = some (os', v) ∧ (deeds ops os).length = os'.length ∧
      ∀ p ∈ (deeds ops os).zip os', SameDone p.1.1 p.1.2 p.2 := by
  rcases C77_questions_change_nothing_else_partial hx hs ops (.inl hu) with ⟨h, _⟩ | ⟨os1, u1, os', v, h1, h2, _, h3, h4⟩
  · rw [h] at hr; cases hr
  · rw [h1] at hr
    cases hr
    exact ⟨os', v, h2, h3, h4⟩

namespace Demo

/-- `UsesEarly`, computed -/
def earlyB (x : Ctx) : List Op → Parser → Bool
  | [], _ => true
  | op :: ops, s =>
    (match op with | .useFields _ => !s.eof | _ => true) &&
    match Parser.step x op s with
    | none => true
    | some (_, t) => earlyB x ops t

theorem early_of {x : Ctx} : ∀ {ops : List Op} {s : Parser}, earlyB x ops s = true → s.UsesEarly x ops
  | [], _, _ => trivial
  | op :: ops, s, h => by
    unfold earlyB at h
    rw [Bool.and_eq_true] at h
    refine ⟨fun fs e => ?_, fun o t hs => ?_⟩
    · subst e; simpa using h.1
    · have := h.2
      rw [hs] at this
      exact early_of this

/-- reading with a selection, a bad field, the end of the input, and a question before and behind every call -/
def asked : List Op :=
  [.fieldExists (bs "b"), .useFields [bs "b"], .header, .getNext [num], .fieldExists (bs "zz"), .rawHeader, .getNext [num], .header,
   .ignoreNext, .header, .getNext [num], .fieldExists (bs "a"), .getNext [num], .header]

/-- C77 at work: the setup, the parser and the calls meet the hypotheses; the observations are those of the short run -/
theorem C77_asked :
    (ctx cs "a,b\n1,2\n3,x\n5,6\n7,8\n").Setup ∧ Parser.Created (ctx cs "a,b\n1,2\n3,x\n5,6\n7,8\n") (start cs "a,b\n1,2\n3,x\n5,6\n7,8\n") ∧
    (start cs "a,b\n1,2\n3,x\n5,6\n7,8\n").UsesEarly (ctx cs "a,b\n1,2\n3,x\n5,6\n7,8\n") asked ∧
    ((deeds asked (runs cs "a,b\n1,2\n3,x\n5,6\n7,8\n" asked)).map fun p => (p.2.ret, p.2.valid, p.2.eof, p.2.line)) =
      [(.unit, true, false, 1), (.row (some [.int 2]), true, false, 2), (.row none, false, false, 3), (.flag true, true, false, 4),
       (.row (some [.int 8]), true, true, 5), (.row none, false, true, 5)] := by
  refine ⟨⟨cs_wf, by decide, by decide⟩, created cs_wf rfl _, early_of (by decide +kernel), by decide +kernel⟩

/-- what `Judges` leaves out: behind `ignore_next` `valid()` still speaks of the call before - the bad row, or the question -/
theorem C77_ignore_next_judges_nothing :
    (runs cs "1\nx\n3\n4\n" [.getNext [num], .getNext [num], .ignoreNext]).map (fun o => (o.ret, o.valid)) =
      [(.row (some [.int 1]), true), (.row none, false), (.flag true, false)] ∧
    (runs cs "1\nx\n3\n4\n" [.getNext [num], .getNext [num], .header, .ignoreNext]).map (fun o => (o.ret, o.valid)) =
      [(.row (some [.int 1]), true), (.row none, false), (.names [bs "1"], true), (.flag true, true)] := by
  decide +kernel

end Demo
end Ssp
