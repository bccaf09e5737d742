import Verif.Proofs.MachineHeader
/-!
# The calls of the row machine
-/
namespace Ssp
open Spec

/-! ## The calls -/

def Op.mexec (x : Ctx) : Op → M Mach Ret
  | .getNext rs => do
    let v ← Mach.getNext x rs
    let s ← M.get
    if s.valid x.cfg then
      match v with
      | some v => pure (.row (some v))
      | none => M.ub
    else pure (.row none)
  | .ignoreNext => do
    let b ← Mach.onRd (MRd.readNext x)
    pure (.flag b)
  | .header => do
    let l ← Mach.getHeader x
    pure (.names l)
  | .rawHeader => do
    let s ← M.get
    pure (.names [s.rawHeader])
  | .fieldExists f => do
    let b ← Mach.fieldExists x f
    pure (.flag b)
  | .useFields fs => do
    Mach.useFields x fs
    pure .unit
  | .chain a as => do
    let s ← M.get
    if s.eof then pure (.opts [])
    else
      let l ← Mach.tryChain x a as
      pure (.opts l)

theorem exec_sim {x : Ctx} (hx : x.Good) {s : Parser} {t : Mach} (op : Op) (h : PRel x s t) :
    RSim (PRel x) (PRel x) (fun a b => a = b) (op.exec x s) (op.mexec x t) := by
  cases op with
  | getNext rs =>
    refine (getNext_sim hx rs h).bind fun v s v' t hv h => ?_
    simp only [M.get_bind]
    rw [h.valid]
    split
    · cases v' with
      | none => trivial
      | some v' => rw [hv v' rfl]; exact .ok rfl h
    · exact .ok rfl h
  | ignoreNext =>
    refine (ignoreNext_sim hx h).bind fun v s v' t hv h => ?_
    exact .ok (by rw [hv]) h
  | header =>
    refine (getHeader_sim h).bind fun v s v' t hv h => ?_
    exact .ok (by rw [hv]) h
  | rawHeader =>
    simp only [Op.exec, Op.mexec, M.get_bind]
    exact .ok (by rw [h.rawHeader]) h
  | fieldExists f =>
    refine (fieldExists_sim f h).bind fun v s v' t hv h => ?_
    exact .ok (by rw [hv]) h
  | useFields fs =>
    refine (useFields_sim hx fs h).bind fun v s v' t hv h => ?_
    exact .ok rfl h
  | chain a as =>
    simp only [Op.exec, Op.mexec, M.get_bind, h.eof]
    split
    · exact .ok rfl h
    · refine (tryChain_sim hx a as h).bind fun v s v' t hv h => ?_
      exact .ok (by rw [hv]) h

/-! ## Progress -/

/-- The call comes back, and then `P` holds. -/
def Post {α : Type} (P : Mach → Prop) : Res Mach α → Prop
  | .ok _ t => P t
  | .exc _ t => P t
  | .ub => False
  | .nofuel => False

theorem Post.mono {α : Type} {P Q : Mach → Prop} {r : Res Mach α} (h : Post P r) (hpq : ∀ t, P t → Q t) : Post Q r := by
  cases r <;> first | exact hpq _ h | exact h

theorem Post.of_reports {α : Type} {x : Ctx} {P : Mach → Prop} {r : Res Mach α} {m : Bytes} {v : α} {t : Mach}
    (h : Mach.Reports x r m v t) (h1 : P t) (h2 : P { t with err := t.err.set x.cfg.mode m }) : Post P r := by
  unfold Mach.Reports at h
  split at h
  · rw [h]; exact h1
  · rw [h]; exact h2

/-- What the calls about the header change: the error and the names, nothing else. -/
structure HdrSame (t t' : Mach) : Prop where
  rd : t'.rd = t.rd
  rawHeader : t'.rawHeader = t.rawHeader
  eof : t'.eof = t.eof

/-- A property of the machine that the calls keep. -/
structure MKept (x : Ctx) (I : Mach → Prop) : Prop where
  hdr : ∀ {t t' : Mach}, I t → HdrSame t t' → I t'
  read : ∀ {t : Mach}, I t → I { t with rd := (t.rd.readR x).2 }
  readFrom : ∀ {t : Mach} (c n : ASlot) (e : ErrSt), I t → I (t.readFrom x e { t.rd with cur := c, next := n })
  sel : ∀ {t : Mach} (sel : List Nat) (n : Nat), I t → I { t with rd := { t.rd with sel := sel, ncols := n } }
  slots : ∀ {t : Mach} (c n : ASlot) (e : ErrSt), (t.eof = false → n.err.valid x.cfg.mode = true) → I t →
    I { t with err := e, rd := { t.rd with cur := c, next := n } }
  clean : ∀ {t : Mach}, I t → t.eof = false → t.rd.next.err.valid x.cfg.mode = true

theorem MInv.hdr {x : Ctx} {t t' : Mach} (h : MInv x t) (hs : HdrSame t t') : MInv x t' := by
  obtain ⟨h1, h2, h3, h4⟩ := h
  rw [← hs.rd] at h1 h2 h3 h4
  rw [← hs.eof] at h2 h3 h4
  exact ⟨h1, h2, h3, h4⟩

theorem splitHeaderDataIf_post {x : Ctx} (hx : x.Ok) {p : Mach → Bool} {t : Mach} (h0 : p t = true → t.header = []) :
    Post (HdrSame t) (Mach.splitHeaderDataIf x p t) := by
  unfold Mach.splitHeaderDataIf
  split
  · rename_i hp
    obtain ⟨r, _, hr⟩ := strictSplit_spec hx t.rawHeader
    have := splitHeaderData_spec hr (h0 hp)
    cases r with
    | error m => exact Post.of_reports this ⟨rfl, rfl, rfl⟩ ⟨rfl, rfl, rfl⟩
    | ok cols =>
      simp only at this
      split at this
      · rw [this]; exact ⟨rfl, rfl, rfl⟩
      · obtain ⟨p, f, _, _, h⟩ := this
        split at h
        · rw [h]; exact ⟨rfl, rfl, rfl⟩
        · rw [h]; exact ⟨rfl, rfl, rfl⟩
  · exact ⟨rfl, rfl, rfl⟩

theorem Post.bind {α β : Type} {P Q : Mach → Prop} {m : M Mach α} {f : α → M Mach β} {t : Mach} (h : Post P (m t))
    (hf : ∀ a t, P t → Post Q (f a t)) (hpq : ∀ t, P t → Q t) : Post Q ((m >>= f) t) := by
  cases hm : m t with
  | ok a t' => rw [hm] at h; rw [M.bind_of_ok hm]; exact hf a t' h
  | exc e t' => rw [hm] at h; rw [M.bind_of_exc hm]; exact hpq _ h
  | ub => rw [hm] at h; exact h.elim
  | nofuel => rw [hm] at h; exact h.elim

theorem HdrSame.trans {a b c : Mach} (h : HdrSame a b) (h' : HdrSame b c) : HdrSame a c :=
  ⟨h'.rd.trans h.rd, h'.rawHeader.trans h.rawHeader, h'.eof.trans h.eof⟩

theorem fieldExists_post {x : Ctx} (hx : x.Ok) (f : Bytes) (t : Mach) : Post (HdrSame t) (Mach.fieldExists x f t) := by
  unfold Mach.fieldExists Mach.clearError
  simp only [M.modify_bind]
  have hs : HdrSame t { t with err := t.err.clear x.cfg.mode } := ⟨rfl, rfl, rfl⟩
  refine Post.bind ((splitHeaderDataIf_post hx (by intro h; simpa using h)).mono fun t' h => hs.trans h) ?_ fun _ h => h
  intro _ t' h
  simp only [M.get_bind]
  split <;> exact h

theorem getHeader_post {x : Ctx} (hx : x.Ok) (t : Mach) : Post (HdrSame t) (Mach.getHeader x t) := by
  obtain ⟨r, _, hr⟩ := strictSplit_spec hx t.rawHeader
  have := getHeader_spec hr
  cases r with
  | error m => exact Post.of_reports this ⟨rfl, rfl, rfl⟩ ⟨rfl, rfl, rfl⟩
  | ok cols => simp only at this; rw [this]; exact ⟨rfl, rfl, rfl⟩

theorem MInv.read {x : Ctx} {t : Mach} (h : MInv x t) :
    MInv x { t with rd := (t.rd.readR x).2 } := by
  obtain ⟨r1, r2, r3, r4, r5⟩ := h.base.read
  refine ⟨r1, ?_, ?_, fun _ => r4⟩
  · intro _
    cases hb : (t.rd.readR x).1 with
    | true => exact .inl (r2 hb).1
    | false => exact .inr (r3 hb).1
  · intro he
    have ht := (h.over he).1
    have hb : (t.rd.readR x).1 = false := by
      show (MRd.readGo _ _ _).1 = false
      rw [ht]; rfl
    exact ⟨(r3 hb).2.1, .inr (r3 hb).1⟩

theorem MInv.readFrom {x : Ctx} {t : Mach} {a : MRd} (h : MBase x a) (e : ErrSt) : MInv x (t.readFrom x e a) := by
  obtain ⟨r1, r2, r3, r4, r5⟩ := h.read
  refine ⟨r1, ?_, ?_, fun _ => r4⟩
  · intro he
    have hb : (a.readR x).1 = true := by simpa [Mach.readFrom] using he
    exact .inl (r2 hb).1
  · intro he
    have hb : (a.readR x).1 = false := by simpa [Mach.readFrom] using he
    exact ⟨(r3 hb).2.1, .inr (r3 hb).1⟩

theorem mapFields_post {x : Ctx} (all fs : List Bytes) (t : Mach) :
    Post (fun t' => ∃ e, t' = { t with err := e }) (Mach.mapFields x all fs t) := by
  by_cases h : ∀ f ∈ fs, all.count f = 1 ∧ f ∈ t.header
  · rw [mapFields_ok h]; exact ⟨t.err, rfl⟩
  · obtain ⟨f, _, h | h⟩ := mapFields_bad (x := x) h
    · exact Post.of_reports h.2 ⟨t.err, rfl⟩ ⟨_, rfl⟩
    · exact Post.of_reports h.2 ⟨t.err, rfl⟩ ⟨_, rfl⟩

theorem MInv.sel {x : Ctx} {t : Mach} (h : MInv x t) (sel : List Nat) (n : Nat) :
    MInv x { t with rd := { t.rd with sel := sel, ncols := n } } := by
  obtain ⟨⟨a1, a2, a3, a4⟩, h2, h3, h4⟩ := h
  refine ⟨⟨a1, a2, a3, a4⟩, ?_, ?_, h4⟩
  · intro he
    exact (h2 he).imp (fun h => ⟨h.1, h.2, h.3, h.4, h.5, h.6⟩) (fun h => ⟨h.1, h.2, h.3, h.4⟩)
  · intro he
    exact ⟨(h3 he).1, (h3 he).2.imp id (fun h => ⟨h.1, h.2, h.3, h.4⟩)⟩

theorem useFields_post' {x : Ctx} {I : Mach → Prop} (K : MKept x I) (hx : x.Ok) (fs : List Bytes) {t : Mach} (h : I t) :
    Post I (Mach.useFields x fs t) := by
  unfold Mach.useFields Mach.clearError
  simp only [M.modify_bind]
  have h' : I { t with err := t.err.clear x.cfg.mode } := K.hdr h ⟨rfl, rfl, rfl⟩
  refine Post.bind ((splitHeaderDataIf_post hx (by intro h; simp at h; simpa using h.1)).mono fun t' hs => K.hdr h' hs) ?_ fun _ h => h
  intro _ t h
  simp only [M.get_bind]
  split
  · exact h
  · split
    · exact Post.of_reports (handleError_reports x _ t) h (K.hdr h ⟨rfl, rfl, rfl⟩)
    · refine Post.bind ((mapFields_post fs fs t).mono ?_) ?_ fun _ h => h
      · rintro t' ⟨e, rfl⟩; exact K.hdr h ⟨rfl, rfl, rfl⟩
      · intro o t h
        cases o with
        | none => exact h
        | some sel =>
          simp only [Mach.setMapping, M.modify_bind, M.get_bind]
          have h := K.sel sel t.header.length h
          split
          · rw [M.bind_of_ok (onRd_of_ok (MRd.readNext_eq x _))]
            exact K.read h
          · exact h

theorem MBase.slots {x : Ctx} {a : MRd} (h : MBase x a) (c n : ASlot) : MBase x { a with cur := c, next := n } :=
  ⟨h.1, h.2, h.3, h.4⟩

theorem MInv.slots {x : Ctx} {t : Mach} (h : MInv x t) (c n : ASlot) (e : ErrSt)
    (hn : t.eof = false → n.err.valid x.cfg.mode = true) :
    MInv x { t with err := e, rd := { t.rd with cur := c, next := n } } := by
  obtain ⟨⟨a1, a2, a3, a4⟩, h2, h3, h4⟩ := h
  refine ⟨⟨a1, a2, a3, a4⟩, ?_, ?_, hn⟩
  · intro he
    exact (h2 he).imp (fun h => ⟨h.1, h.2, h.3, h.4, h.5, h.6⟩) (fun h => ⟨h.1, h.2, h.3, h.4⟩)
  · intro he
    exact ⟨(h3 he).1, (h3 he).2.imp id (fun h => ⟨h.1, h.2, h.3, h.4⟩)⟩

theorem MInv.kept (x : Ctx) : MKept x (MInv x) where
  hdr h hs := h.hdr hs
  read h := h.read
  readFrom c n e h := MInv.readFrom (h.base.slots c n) e
  sel sel n h := h.sel sel n
  slots c n e hn h := h.slots c n e hn
  clean h := h.clean

theorem useFields_post {x : Ctx} (hx : x.Ok) (fs : List Bytes) {t : Mach} (h : MInv x t) :
    Post (MInv x) (Mach.useFields x fs t) := useFields_post' (MInv.kept x) hx fs h

def readOnEof (x : Ctx) : Bytes := x.fileName ++ bs ": read on end of file"

/-- `get_next` at the end of the input: an error; either the error of the row in the other buffer is still there, and
one more attempt to read is made, or the end of the input is reported. -/
theorem getNext_eof {x : Ctx} {rs : List Req} {t : Mach} (he : t.eof = true) :
    if t.rd.next.err.valid x.cfg.mode = false then
      Mach.getNext x rs t = .ok (some (Conv.defaults rs)) (t.readFrom x (t.err.set x.cfg.mode (x.at t.rd.ln t.rd.next.err.msg))
        { t.rd with cur := t.rd.next, next := t.rd.cur })
    else Mach.Reports x (Mach.getNext x rs t) (readOnEof x) (some (Conv.defaults rs))
      { t with err := t.err.clear x.cfg.mode, rd := { t.rd with cur := t.rd.next, next := t.rd.cur } } := by
  have hp : Mach.parseRowIf x t = .ok () t := by simp [Mach.parseRowIf, he]
  unfold Mach.getNext
  rw [M.bind_of_ok hp]
  split
  · rename_i hv
    simp only [Mach.onRd, MRd.update, M.modify_apply, M.bind_apply, M.get_apply, hv, Bool.not_false, if_true,
      Mach.handleErrorInvalidConversion, Mach.readLine_eq, M.pure_apply]
    rfl
  · rename_i hv
    have hv : t.rd.next.err.valid x.cfg.mode = true := by simpa using hv
    simp only [Mach.onRd, MRd.update, M.modify_apply, M.bind_apply, M.get_apply, hv, Bool.not_true, Bool.false_eq_true, if_false,
      Mach.clearError, he, if_true]
    exact (handleError_reports x (readOnEof x) _).bind fun t => rfl

theorem MOut.post {x : Ctx} {n : Nat} {r : Res Mach (Option (List Val))} {t' : Mach} {res : Except Bytes (List Val)}
    {P : Mach → Prop} (h : MOut x n r t' res) (hp : P t') : Post P r := by
  unfold MOut at h
  cases res with
  | ok vs => rw [h.1]; exact hp
  | error m =>
    simp only at h
    split at h
    · rw [h]; exact hp
    · obtain ⟨o, h, _⟩ := h; rw [h]; exact hp
    · obtain ⟨o, h, _⟩ := h; rw [h]; exact hp

/-- the rows from the next one on (not at the end) -/
def MRd.rows (x : Ctx) (a : MRd) : List Bytes := a.look :: rowsOf x.cfg.ignoreEmpty a.todo

/-- What a row is, from the text read ahead. -/
def MRd.rowRes (x : Ctx) (a : MRd) : Except Bytes (List Bytes) :=
  if cutNul a.look = [] ∧ a.next.serr.valid x.cfg.mode = false then .error a.next.serr.msg
  else splitRes x.cfg x.delim (cutNul a.look)

/-- what the row in `cur` yields for some types -/
def MRd.curRes (x : Ctx) (rs : List Req) (a : MRd) : Except Bytes (List Val) :=
  if a.cur.serr.valid x.cfg.mode = false then .error a.cur.serr.msg
  else match a.cur.cols with
    | some cs => rowResult rs a.sel a.ncols cs
    | none => .error []

/-- the callback accepts the values -/
def Parser.Alt.accepts (a : Parser.Alt) (vs : List Val) : Bool :=
  match a.fn with
  | none => true
  | some f => f vs != some false

/-- the outcome of an alternative: its optional, and whether the callback was called -/
def Parser.Alt.outcome (a : Parser.Alt) : Except Bytes (List Val) → Option (List Val) × Bool
  | .ok vs => (if a.accepts vs then some vs else none, a.fn.isSome)
  | .error _ => (none, false)

/-- `get_next` without multiline, not at the end of the input -/
theorem getNext_row' {x : Ctx} (hm : x.cfg.multiline = false) {rs : List Req} {t : Mach} (hcl : t.rd.next.err.valid x.cfg.mode = true)
    (he : t.eof = false) :
    ∃ e c' n', (x.cfg.mode ≠ .throw → n' = t.rd.cur ∧ (c'.serr.valid x.cfg.mode = false ∨ c'.cols ≠ none) ∧
        ∀ a : Parser.Alt, a.outcome (MRd.curRes x a.reqs { t.rd with cur := c' }) =
          a.outcome (rowOf a.reqs t.rd.sel t.rd.ncols (t.rd.rowRes x))) ∧
      MOut x t.rd.ln (Mach.getNext x rs t) (t.readFrom x e { t.rd with cur := c', next := n' })
        (rowOf rs t.rd.sel t.rd.ncols (t.rd.rowRes x)) := by
  obtain ⟨n1, h00, h0, h1⟩ := parse_one hm hcl
  obtain ⟨e, c', n', h2, h3⟩ := getNext_of_parse (rs := rs) he h1
  refine ⟨e, c', n', fun hth => ?_, h3⟩
  obtain ⟨e1, e2, e3⟩ := h2 hth
  refine ⟨e3, ?_, ?_⟩
  · rw [e1, e2]
    exact h0 hth
  · intro a
    change PRes x t.rd (t.rd.rowRes x) _ at h1
    unfold MRd.curRes
    simp only [e1, e2]
    cases hr : t.rd.rowRes x with
    | error m =>
      rw [hr] at h1
      unfold PRes PResR at h1
      simp only [hth, if_false] at h1
      rcases h1.2 with h | h
      · exact absurd ((congrArg _ h00).trans hcl) (by rw [h.1]; simp)
      · rw [if_pos h.2.1]; rfl
    | ok cols =>
      rw [hr] at h1
      obtain ⟨_, _, h5, h6⟩ := h1
      simp only [h5, Bool.true_eq_false, if_false]
      rw [h6]
      rfl

theorem getNext_row {x : Ctx} (hm : x.cfg.multiline = false) {rs : List Req} {t : Mach} (h : MInv x t) (he : t.eof = false) :
    ∃ e c' n', (x.cfg.mode ≠ .throw → n' = t.rd.cur ∧ (c'.serr.valid x.cfg.mode = false ∨ c'.cols ≠ none) ∧
        ∀ a : Parser.Alt, a.outcome (MRd.curRes x a.reqs { t.rd with cur := c' }) =
          a.outcome (rowOf a.reqs t.rd.sel t.rd.ncols (t.rd.rowRes x))) ∧
      MOut x t.rd.ln (Mach.getNext x rs t) (t.readFrom x e { t.rd with cur := c', next := n' })
        (rowOf rs t.rd.sel t.rd.ncols (t.rd.rowRes x)) :=
  getNext_row' hm (h.clean he) he

theorem getNext_post' {x : Ctx} {I : Mach → Prop} (K : MKept x I) (hm : x.cfg.multiline = false) (rs : List Req) {t : Mach} (h : I t) :
    Post I (Mach.getNext x rs t) := by
  cases he : t.eof with
  | true =>
    have := getNext_eof (x := x) (rs := rs) he
    split at this
    · rw [this]; exact K.readFrom _ _ _ h
    · have hi : I { t with err := t.err.clear x.cfg.mode, rd := { t.rd with cur := t.rd.next, next := t.rd.cur } } :=
        K.slots _ _ _ (by simp [he]) h
      exact Post.of_reports this hi (K.hdr hi ⟨rfl, rfl, rfl⟩)
  | false =>
    obtain ⟨e, c', n', _, h3⟩ := getNext_row' hm (rs := rs) (K.clean h he) he
    exact h3.post (K.readFrom _ _ _ h)

theorem getNext_post {x : Ctx} (hm : x.cfg.multiline = false) (rs : List Req) {t : Mach} (h : MInv x t) :
    Post (MInv x) (Mach.getNext x rs t) := getNext_post' (MInv.kept x) hm rs h

theorem MOut.valid {x : Ctx} {n : Nat} {r : Res Mach (Option (List Val))} {t' : Mach} {res : Except Bytes (List Val)}
    (h : MOut x n r t' res) {o : Option (List Val)} {t : Mach} (hr : r = .ok o t) :
    t = t' ∧ (match res with
      | .ok vs => o = some vs ∧ t.valid x.cfg = true
      | .error m => t.valid x.cfg = false ∧ x.cfg.mode ≠ .throw ∧ (x.cfg.mode = .string → t.err.msg = x.at n m)) := by
  subst hr
  unfold MOut at h
  cases res with
  | ok vs => obtain ⟨h, hv⟩ := h; cases h; exact ⟨rfl, rfl, hv⟩
  | error m =>
    cases hm : x.cfg.mode with
    | throw => simp only [hm] at h; cases h
    | string =>
      simp only [hm] at h
      obtain ⟨o', h, hv⟩ := h
      cases h
      refine ⟨rfl, ?_, by simp, fun _ => hv⟩
      simp [Mach.valid, ErrSt.valid, hm, hv, Ctx.at_ne]
    | bool =>
      simp only [hm] at h
      obtain ⟨o', h, hv⟩ := h
      cases h
      refine ⟨rfl, ?_, by simp, fun h => by cases h⟩
      simp [Mach.valid, ErrSt.valid, hm, hv]

/-! ## Substitute conversions -/

theorem invoke_spec {x : Ctx} (hth : x.cfg.mode ≠ .throw) (a : Parser.Alt) (vs : List Val) {t : Mach} (hv : t.valid x.cfg = true) :
    ∃ e, (do
        let called ← Mach.tryInvoke x (some vs) a.fn
        let s ← M.get
        let o ← Mach.optional (s.valid x.cfg) (some vs)
        pure (o, called) : M Mach (Option (List Val) × Bool)) t = .ok (a.outcome (.ok vs)) { t with err := e } ∧
      e.valid x.cfg.mode = a.accepts vs := by
  unfold Parser.Alt.outcome Parser.Alt.accepts
  cases hf : a.fn with
  | none =>
    refine ⟨t.err, ?_, hv⟩
    simp [M.bind_apply, hv, Mach.optional, Mach.tryInvoke]
  | some f =>
    by_cases hr : f vs = some false
    · have hne : x.fileName ++ bs ": failed check" ≠ [] := by
        have : bs ": failed check" ≠ [] := by decide
        simp [this]
      have hvs := ErrSt.valid_set hth hne t.err
      have hn : (f vs != some false) = false := by simp [hr]
      refine ⟨t.err.set x.cfg.mode (x.fileName ++ bs ": failed check"), ?_, by simp only [hvs, hn]⟩
      have := handleError_reports x (x.fileName ++ bs ": failed check") t
      unfold Mach.Reports at this
      rw [if_neg hth] at this
      have hi : Mach.tryInvoke x (some vs) (some f) t =
          .ok true { t with err := t.err.set x.cfg.mode (x.fileName ++ bs ": failed check") } := by
        unfold Mach.tryInvoke
        simp only [hr]
        rw [M.bind_of_ok this]; rfl
      rw [M.bind_of_ok hi]
      simp only [M.get_bind, Mach.valid, hvs, Mach.optional, hn]
      rfl
    · have hi : Mach.tryInvoke x (some vs) (some f) t = .ok true t := by
        unfold Mach.tryInvoke
        simp only
        rfl
      have hn : (f vs != some false) = true := by simpa using hr
      refine ⟨t.err, ?_, by simp only [hn]; exact hv⟩
      rw [M.bind_of_ok hi]
      simp only [M.get_bind, hv, Mach.optional, hn, if_true]
      rfl

/-- the state after an alternative was tried -/
structure Tried (x : Ctx) (t t' : Mach) : Prop where
  header : t'.header = t.header
  rawHeader : t'.rawHeader = t.rawHeader
  eof : t'.eof = t.eof
  rd : ∃ e, t'.rd = { t.rd with cur := { t.rd.cur with err := e } }

theorem Tried.refl {x : Ctx} (t : Mach) : Tried x t t := ⟨rfl, rfl, rfl, t.rd.cur.err, rfl⟩

theorem Tried.trans {x : Ctx} {a b c : Mach} (h : Tried x a b) (h' : Tried x b c) : Tried x a c := by
  refine ⟨h'.1.trans h.1, h'.2.trans h.2, h'.3.trans h.3, ?_⟩
  obtain ⟨e, h⟩ := h.rd
  obtain ⟨e', h'⟩ := h'.rd
  exact ⟨e', by rw [h', h]⟩

theorem Tried.curRes {x : Ctx} {t t' : Mach} (h : Tried x t t') (rs : List Req) : t'.rd.curRes x rs = t.rd.curRes x rs := by
  obtain ⟨e, h⟩ := h.rd
  unfold MRd.curRes
  rw [h]

theorem Tried.inv' {x : Ctx} {I : Mach → Prop} (K : MKept x I) {t t' : Mach} (h : Tried x t t') (hi : I t) : I t' := by
  obtain ⟨e, h'⟩ := h.rd
  have := K.slots { t.rd.cur with err := e } t.rd.next t'.err (K.clean hi) hi
  exact K.hdr this ⟨h', h.rawHeader, h.eof⟩

theorem Tried.inv {x : Ctx} {t t' : Mach} (h : Tried x t t') (hi : MInv x t) : MInv x t' := h.inv' (MInv.kept x) hi

theorem trySame_spec {x : Ctx} (hth : x.cfg.mode ≠ .throw) (rs : List Req) {t : Mach}
    (hc : t.rd.cur.serr.valid x.cfg.mode = false ∨ t.rd.cur.cols ≠ none) :
    ∃ o t', Mach.trySame x rs t = .ok o t' ∧ Tried x t t' ∧
      match t.rd.curRes x rs with
      | .ok vs => o = some vs ∧ t'.valid x.cfg = true
      | .error _ => t'.valid x.cfg = false := by
  unfold Mach.trySame MRd.curRes Mach.clearError
  simp only [M.modify_bind]
  have hbad : ∀ (t0 : Mach) (e : ErrSt), ∃ t', Mach.handleErrorInvalidConversion x t0 = .ok () t' ∧
      t' = { t0 with err := t'.err } ∧ t'.valid x.cfg = false := by
    intro t0 e
    refine ⟨_, rfl, rfl, ?_⟩
    exact ErrSt.valid_set hth (Ctx.at_ne (x := x)) _
  by_cases hs : t.rd.cur.serr.valid x.cfg.mode = false
  · rw [if_pos hs]
    simp only
    have hcv : ∃ e, MRd.convertCur x.cfg rs t.rd = .ok none { t.rd with cur := { t.rd.cur with err := e } } ∧
        e.valid x.cfg.mode = false := by
      unfold MRd.convertCur
      simp only [hs, if_true]
      refine ⟨_, rfl, ?_⟩
      cases hm : x.cfg.mode with
      | throw => exact absurd hm hth
      | string => rw [hm] at hs; simpa [ErrSt.valid] using hs
      | bool => simp [ErrSt.valid]
    obtain ⟨e, h1, h2⟩ := hcv
    rw [M.bind_of_ok (onRd_of_ok (t := { t with err := t.err.clear x.cfg.mode }) h1)]
    simp only [M.get_bind, h2, Bool.false_eq_true, if_false]
    obtain ⟨t', h3, h4, h5⟩ := hbad _ e
    rw [M.bind_of_ok h3]
    refine ⟨none, t', rfl, ?_, h5⟩
    rw [h4]
    exact ⟨rfl, rfl, rfl, e, rfl⟩
  · rw [if_neg hs]
    have hs' : t.rd.cur.serr.valid x.cfg.mode = true := by simpa using hs
    obtain ⟨cs, hcs⟩ := Option.ne_none_iff_exists'.mp (hc.resolve_left hs)
    have hcv := convertCur_spec (x := x) (rs := rs) hs' hcs
    rw [hcs]
    simp only
    cases hr : rowResult rs t.rd.sel t.rd.ncols cs with
    | ok vs =>
      rw [hr] at hcv
      simp only at hcv ⊢
      rw [M.bind_of_ok (onRd_of_ok (t := { t with err := t.err.clear x.cfg.mode }) hcv)]
      simp only [M.get_bind, ErrSt.valid_clear, if_true]
      refine ⟨some vs, _, rfl, ⟨rfl, rfl, rfl, _, rfl⟩, rfl, ErrSt.valid_clear _ _⟩
    | error m =>
      rw [hr] at hcv
      simp only [hth, if_false] at hcv ⊢
      rw [M.bind_of_ok (onRd_of_ok (t := { t with err := t.err.clear x.cfg.mode }) hcv)]
      have hv := ErrSt.valid_set hth (Conv.rowResult_nonempty_error hr) (t.rd.cur.err.clear x.cfg.mode)
      simp only [M.get_bind, hv, Bool.false_eq_true, if_false]
      obtain ⟨t', h3, h4, h5⟩ := hbad _ ((t.rd.cur.err.clear x.cfg.mode).set x.cfg.mode m)
      rw [M.bind_of_ok h3]
      refine ⟨none, t', rfl, ?_, h5⟩
      rw [h4]
      exact ⟨rfl, rfl, rfl, _, rfl⟩

/-- `or_else` on an invalid parser -/
theorem orElse_spec {x : Ctx} (a : Parser.Alt) {t : Mach} (hv : t.valid x.cfg = false)
    (hc : t.rd.cur.serr.valid x.cfg.mode = false ∨ t.rd.cur.cols ≠ none) :
    ∃ t', Mach.orElse x a t = .ok (a.outcome (t.rd.curRes x a.reqs)) t' ∧ Tried x t t' ∧
      t'.valid x.cfg = (a.outcome (t.rd.curRes x a.reqs)).1.isSome := by
  have hth : x.cfg.mode ≠ .throw := by
    intro h; rw [Mach.valid, h] at hv; simp [ErrSt.valid] at hv
  unfold Mach.orElse
  simp only [M.get_bind, hv, Bool.false_eq_true, if_false]
  obtain ⟨o, t1, h1, h2, h3⟩ := trySame_spec hth a.reqs hc
  rw [M.bind_of_ok h1]
  cases hr : t.rd.curRes x a.reqs with
  | ok vs =>
    rw [hr] at h3
    obtain ⟨rfl, h3⟩ := h3
    simp only [M.get_bind, h3, if_true]
    obtain ⟨e, h4, h5⟩ := invoke_spec hth a vs h3
    rw [h4]
    refine ⟨_, rfl, h2.trans ⟨rfl, rfl, rfl, t1.rd.cur.err, rfl⟩, ?_⟩
    simp only [Mach.valid, h5, Parser.Alt.outcome]
    cases a.accepts vs <;> rfl
  | error m =>
    rw [hr] at h3
    simp only [M.get_bind, h3, Bool.false_eq_true, if_false]
    exact ⟨t1, rfl, h2, h3⟩

/-- `or_else` on a valid parser -/
theorem orElse_valid {x : Ctx} (a : Parser.Alt) {t : Mach} (hv : t.valid x.cfg = true) :
    Mach.orElse x a t = .ok (none, false) t := by
  unfold Mach.orElse
  simp only [M.get_bind, hv, if_true]
  rfl

/-- the outcomes of alternatives tried one after the other, `res` telling what the row yields for each: nothing happens
any more once one of them was taken -/
def chainOut (res : Parser.Alt → Except Bytes (List Val)) : List Parser.Alt → List (Option (List Val) × Bool)
  | [] => []
  | a :: as =>
    a.outcome (res a) :: (if (a.outcome (res a)).1.isSome then as.map fun _ => (none, false) else chainOut res as)

theorem orElses_valid {x : Ctx} : ∀ (as : List Parser.Alt) {t : Mach}, t.valid x.cfg = true →
    Mach.orElses x as t = .ok (as.map fun _ => (none, false)) t := by
  intro as
  induction as with
  | nil => intro t _; rfl
  | cons a as ih =>
    intro t hv
    unfold Mach.orElses
    rw [M.bind_of_ok (orElse_valid a hv), M.bind_of_ok (ih hv)]
    rfl

theorem orElses_spec {x : Ctx} : ∀ (as : List Parser.Alt) {t : Mach}, t.valid x.cfg = false →
    (t.rd.cur.serr.valid x.cfg.mode = false ∨ t.rd.cur.cols ≠ none) →
    ∃ t', Mach.orElses x as t = .ok (chainOut (fun a => t.rd.curRes x a.reqs) as) t' ∧ Tried x t t' ∧
      t'.valid x.cfg = (chainOut (fun a => t.rd.curRes x a.reqs) as).any (·.1.isSome) := by
  intro as
  induction as with
  | nil => intro t hv _; exact ⟨t, rfl, .refl t, by simpa [chainOut] using hv⟩
  | cons a as ih =>
    intro t hv hc
    obtain ⟨t1, h1, h2, h3⟩ := orElse_spec a hv hc
    unfold Mach.orElses chainOut
    rw [M.bind_of_ok h1]
    cases ho : (a.outcome (t.rd.curRes x a.reqs)).1.isSome with
    | true =>
      rw [ho] at h3
      rw [M.bind_of_ok (orElses_valid as h3)]
      refine ⟨t1, rfl, h2, ?_⟩
      simp [h3, ho]
    | false =>
      rw [ho] at h3
      obtain ⟨t2, h4, h5, h6⟩ := ih h3 (by obtain ⟨e, he⟩ := h2.rd; rw [he]; exact hc)
      have hcr : (fun a : Parser.Alt => t1.rd.curRes x a.reqs) = fun a => t.rd.curRes x a.reqs :=
        funext fun a => h2.curRes a.reqs
      rw [hcr] at h4 h6
      rw [M.bind_of_ok h4]
      refine ⟨t2, rfl, h2.trans h5, ?_⟩
      simp [h6, ho]

/-- the state after the row at `t` was read -/
def Mach.NextRow (x : Ctx) (t t' : Mach) : Prop :=
  ∃ e c n, t' = t.readFrom x e { t.rd with cur := c, next := n }

theorem Mach.NextRow.inv' {x : Ctx} {I : Mach → Prop} (K : MKept x I) {t t' : Mach} (h : Mach.NextRow x t t') (hi : I t) : I t' := by
  obtain ⟨e, c, n, rfl⟩ := h
  exact K.readFrom _ _ _ hi

theorem Mach.NextRow.inv {x : Ctx} {t t' : Mach} (h : Mach.NextRow x t t') (hi : MInv x t) : MInv x t' := h.inv' (MInv.kept x) hi

theorem readGo_slots {ie : Bool} : ∀ (ls : List Bytes) (a : MRd), (MRd.readGo ie ls a).2.cur = a.cur ∧
    (MRd.readGo ie ls a).2.sel = a.sel ∧ (MRd.readGo ie ls a).2.ncols = a.ncols := by
  intro ls
  induction ls with
  | nil => intro a; exact ⟨rfl, rfl, rfl⟩
  | cons l ls ih =>
    intro a
    unfold MRd.readGo
    split
    · exact ih _
    · exact ⟨rfl, rfl, rfl⟩

/-- the position of two machines is the same -/
structure SamePlace (t t' : Mach) : Prop where
  look : t'.rd.look = t.rd.look
  todo : t'.rd.todo = t.rd.todo
  tries : t'.rd.tries = t.rd.tries
  ln : t'.rd.ln = t.rd.ln
  pos : t'.rd.pos = t.rd.pos
  off : t'.rd.off = t.rd.off
  eof : t'.eof = t.eof
  sel : t'.rd.sel = t.rd.sel
  ncols : t'.rd.ncols = t.rd.ncols
  header : t'.header = t.header
  rawHeader : t'.rawHeader = t.rawHeader

theorem Tried.place {x : Ctx} {t t' : Mach} (h : Tried x t t') : SamePlace t t' := by
  obtain ⟨e, h'⟩ := h.rd
  constructor
  all_goals first | rw [h'] | exact h.eof | exact h.header | exact h.rawHeader

/-- `try_next(...).or_else(...)...` without throw_on_error -/
theorem tryChain_spec' {x : Ctx} {I : Mach → Prop} (K : MKept x I) (hm : x.cfg.multiline = false) (hth : x.cfg.mode ≠ .throw) (a : Parser.Alt)
    (as : List Parser.Alt) {t : Mach} (h : I t) (he : t.eof = false) :
    ∃ t1 t', Mach.NextRow x t t1 ∧ SamePlace t1 t' ∧ I t' ∧
      Mach.tryChain x a as t =
        .ok (chainOut (fun b => rowOf b.reqs t.rd.sel t.rd.ncols (t.rd.rowRes x)) (a :: as)) t' ∧
      t'.valid x.cfg = (chainOut (fun b => rowOf b.reqs t.rd.sel t.rd.ncols (t.rd.rowRes x)) (a :: as)).any (·.1.isSome) := by
  obtain ⟨e, c', n', h1, h2⟩ := getNext_row' hm (rs := a.reqs) (K.clean h he) he
  obtain ⟨_, h1, h1'⟩ := h1 hth
  generalize ht1 : t.readFrom x e { t.rd with cur := c', next := n' } = t1 at h2
  have hnr : Mach.NextRow x t t1 := ⟨e, c', n', ht1.symm⟩
  have hi := hnr.inv' K h
  have hcur : t1.rd.cur = c' ∧ t1.rd.sel = t.rd.sel ∧ t1.rd.ncols = t.rd.ncols := by
    rw [← ht1]
    exact readGo_slots _ _
  have hcr : ∀ b : Parser.Alt, b.outcome (t1.rd.curRes x b.reqs) =
      b.outcome (rowOf b.reqs t.rd.sel t.rd.ncols (t.rd.rowRes x)) := by
    intro b
    rw [← h1' b]
    unfold MRd.curRes
    rw [hcur.1, hcur.2.1, hcur.2.2]
  have hco : ∀ bs : List Parser.Alt, chainOut (fun b => t1.rd.curRes x b.reqs) bs =
      chainOut (fun b => rowOf b.reqs t.rd.sel t.rd.ncols (t.rd.rowRes x)) bs := by
    intro bs
    induction bs with
    | nil => rfl
    | cons b bs ih => unfold chainOut; rw [hcr b, ih]
  refine ⟨t1, ?_⟩
  unfold Mach.tryChain Mach.tryNext
  have hchain : ∀ o t2, Mach.tryNext x a t = .ok o t2 → Mach.tryChain x a as t = (Mach.orElses x as >>= fun r => pure (o :: r)) t2 := by
    intro o t2 h
    unfold Mach.tryChain
    rw [M.bind_of_ok h]
  cases hr : rowOf a.reqs t.rd.sel t.rd.ncols (t.rd.rowRes x) with
  | ok vs =>
    rw [hr] at h2
    obtain ⟨h3, h4⟩ := h2
    obtain ⟨e', h5, h6⟩ := invoke_spec hth a vs (t := t1) h4
    have h7 : Mach.tryNext x a t = .ok (a.outcome (.ok vs)) { t1 with err := e' } := by
      unfold Mach.tryNext
      rw [M.bind_of_ok h3]
      have h4' : t1.valid x.cfg = true := h4
      simp only [M.get_bind, h4', if_true]
      exact h5
    have hsp : SamePlace t1 { t1 with err := e' } := ⟨rfl, rfl, rfl, rfl, rfl, rfl, rfl, rfl, rfl, rfl, rfl⟩
    have hi' : I { t1 with err := e' } := K.hdr hi ⟨rfl, rfl, rfl⟩
    unfold chainOut
    change ∃ t', Mach.NextRow x t t1 ∧ SamePlace t1 t' ∧ I t' ∧ Mach.tryChain x a as t = _ ∧ _
    rw [hchain _ _ h7, hr]
    cases hacc : a.accepts vs with
    | true =>
      have ho : (a.outcome (.ok vs)).1.isSome = true := by simp [Parser.Alt.outcome, hacc]
      refine ⟨{ t1 with err := e' }, hnr, hsp, hi', ?_, ?_⟩
      · rw [M.bind_of_ok (orElses_valid as (by show e'.valid _ = true; rw [h6, hacc]))]
        simp only [ho, if_true]
        rfl
      · simp only [Mach.valid, h6, hacc, List.any_cons, ho, Bool.true_or]
    | false =>
      have ho : (a.outcome (.ok vs)).1.isSome = false := by simp [Parser.Alt.outcome, hacc]
      obtain ⟨t2, h8, h9, h10⟩ := orElses_spec as (t := { t1 with err := e' }) (by show e'.valid _ = false; rw [h6, hacc])
        (by show (t1.rd.cur.serr.valid _ = false ∨ t1.rd.cur.cols ≠ none); rw [hcur.1]; exact h1)
      have hco' := hco as
      change chainOut (fun b => MRd.curRes x b.reqs t1.rd) as = _ at hco'
      simp only [hco'] at h8 h10
      refine ⟨t2, hnr, ?_, h9.inv' K hi', ?_, ?_⟩
      · have := h9.place
        exact ⟨this.1, this.2, this.3, this.4, this.5, this.6, this.7, this.8, this.9, this.10, this.11⟩
      · rw [M.bind_of_ok h8]
        simp only [ho, Bool.false_eq_true, if_false]
        rfl
      · simp only [h10, List.any_cons, ho, Bool.false_or, Bool.false_eq_true, if_false]
  | error m =>
    rw [hr] at h2
    have h3 : ∃ o, Mach.getNext x a.reqs t = .ok o t1 := by
      unfold MOut at h2
      cases hmode : x.cfg.mode with
      | throw => exact absurd hmode hth
      | string => simp only [hmode] at h2; obtain ⟨o, h, _⟩ := h2; exact ⟨o, h⟩
      | bool => simp only [hmode] at h2; obtain ⟨o, h, _⟩ := h2; exact ⟨o, h⟩
    obtain ⟨o, h3⟩ := h3
    obtain ⟨_, hv, _⟩ := h2.valid h3
    have h7 : Mach.tryNext x a t = .ok (none, false) t1 := by
      unfold Mach.tryNext
      rw [M.bind_of_ok h3]
      simp only [M.get_bind, hv, Bool.false_eq_true, if_false]
      rfl
    unfold chainOut
    change ∃ t', Mach.NextRow x t t1 ∧ SamePlace t1 t' ∧ I t' ∧ Mach.tryChain x a as t = _ ∧ _
    rw [hchain _ _ h7, hr]
    have ho : (a.outcome (.error m)).1.isSome = false := rfl
    obtain ⟨t2, h8, h9, h10⟩ := orElses_spec as hv (by rw [hcur.1]; exact h1)
    simp only [hco as] at h8 h10
    refine ⟨t2, hnr, h9.place, h9.inv' K hi, ?_, ?_⟩
    · rw [M.bind_of_ok h8]
      simp only [ho, Bool.false_eq_true, if_false]
      rfl
    · simp only [h10, List.any_cons, ho, Bool.false_or, Bool.false_eq_true, if_false]

theorem tryChain_spec {x : Ctx} (hm : x.cfg.multiline = false) (hth : x.cfg.mode ≠ .throw) (a : Parser.Alt)
    (as : List Parser.Alt) {t : Mach} (h : MInv x t) (he : t.eof = false) :
    ∃ t1 t', Mach.NextRow x t t1 ∧ SamePlace t1 t' ∧ MInv x t' ∧
      Mach.tryChain x a as t =
        .ok (chainOut (fun b => rowOf b.reqs t.rd.sel t.rd.ncols (t.rd.rowRes x)) (a :: as)) t' ∧
      t'.valid x.cfg = (chainOut (fun b => rowOf b.reqs t.rd.sel t.rd.ncols (t.rd.rowRes x)) (a :: as)).any (·.1.isSome) :=
  tryChain_spec' (MInv.kept x) hm hth a as h he

/-- the same with throw_on_error -/
theorem tryChain_throw' {x : Ctx} (hm : x.cfg.multiline = false) (hth : x.cfg.mode = .throw) (a : Parser.Alt)
    (as : List Parser.Alt) {t : Mach} (hcl : t.rd.next.err.valid x.cfg.mode = true) (he : t.eof = false) :
    ∃ t', Mach.NextRow x t t' ∧
      match rowOf a.reqs t.rd.sel t.rd.ncols (t.rd.rowRes x) with
      | .ok vs =>
        if a.accepts vs then Mach.tryChain x a as t = .ok ((some vs, a.fn.isSome) :: as.map fun _ => (none, false)) t'
        else Mach.tryChain x a as t = .exc (x.fileName ++ bs ": failed check") t'
      | .error m => Mach.tryChain x a as t = .exc (x.at t'.line m) t' := by
  obtain ⟨e, c', n', _, h2⟩ := getNext_row' hm (rs := a.reqs) hcl he
  generalize ht1 : t.readFrom x e { t.rd with cur := c', next := n' } = t1 at h2
  refine ⟨t1, ⟨e, c', n', ht1.symm⟩, ?_⟩
  have hval : ∀ t : Mach, t.valid x.cfg = true := by intro t; simp [Mach.valid, hth, ErrSt.valid]
  cases hr : rowOf a.reqs t.rd.sel t.rd.ncols (t.rd.rowRes x) with
  | error m =>
    rw [hr] at h2
    simp only [MOut, hth] at h2 ⊢
    unfold Mach.tryChain Mach.tryNext
    rw [M.bind_of_exc (M.bind_of_exc h2)]
  | ok vs =>
    rw [hr] at h2
    obtain ⟨h3, h4⟩ := h2
    simp only
    by_cases hacc : a.accepts vs = true
    · rw [if_pos hacc]
      have h7 : Mach.tryNext x a t = .ok (some vs, a.fn.isSome) t1 := by
        unfold Mach.tryNext
        rw [M.bind_of_ok h3]
        simp only [M.get_bind, hval, if_true]
        unfold Parser.Alt.accepts at hacc
        cases hf : a.fn with
        | none => simp [Mach.tryInvoke, M.bind_apply, Mach.optional]
        | some f =>
          rw [hf] at hacc
          have hr : f vs ≠ some false := by simpa using hacc
          have hi : Mach.tryInvoke x (some vs) (some f) t1 = .ok true t1 := by
            unfold Mach.tryInvoke
            simp only
            rfl
          rw [M.bind_of_ok hi]
          simp [M.bind_apply, Mach.optional]
      unfold Mach.tryChain
      rw [M.bind_of_ok h7, M.bind_of_ok (orElses_valid as (hval _))]
      rfl
    · rw [if_neg hacc]
      unfold Parser.Alt.accepts at hacc
      unfold Mach.tryChain
      have h7 : Mach.tryNext x a t = .exc (x.fileName ++ bs ": failed check") t1 := by
        unfold Mach.tryNext
        rw [M.bind_of_ok h3]
        simp only [M.get_bind, hval, if_true]
        cases hf : a.fn with
        | none => simp [hf] at hacc
        | some f =>
          rw [hf] at hacc
          have hr : f vs = some false := by simpa using hacc
          have hi : Mach.tryInvoke x (some vs) (some f) t1 = .exc (x.fileName ++ bs ": failed check") t1 := by
            unfold Mach.tryInvoke Mach.handleError
            simp only [hr, hth, M.throw_bind]
          rw [M.bind_of_exc hi]
      rw [M.bind_of_exc h7]

theorem tryChain_throw {x : Ctx} (hm : x.cfg.multiline = false) (hth : x.cfg.mode = .throw) (a : Parser.Alt)
    (as : List Parser.Alt) {t : Mach} (h : MInv x t) (he : t.eof = false) :
    ∃ t', Mach.NextRow x t t' ∧
      match rowOf a.reqs t.rd.sel t.rd.ncols (t.rd.rowRes x) with
      | .ok vs =>
        if a.accepts vs then Mach.tryChain x a as t = .ok ((some vs, a.fn.isSome) :: as.map fun _ => (none, false)) t'
        else Mach.tryChain x a as t = .exc (x.fileName ++ bs ": failed check") t'
      | .error m => Mach.tryChain x a as t = .exc (x.at t'.line m) t' :=
  tryChain_throw' hm hth a as (h.clean he) he

/-! ## Every call comes back and keeps the invariant -/

theorem mexec_post' {x : Ctx} {I : Mach → Prop} (K : MKept x I) (hx : x.Ok) (hm : x.cfg.multiline = false) (op : Op) {t : Mach} (h : I t) :
    Post I (op.mexec x t) := by
  cases op with
  | getNext rs =>
    simp only [Op.mexec]
    cases he : t.eof with
    | true =>
      have hp := getNext_post' K hm rs h
      have := getNext_eof (x := x) (rs := rs) he
      split at this
      · rw [this] at hp
        rw [M.bind_of_ok this]
        simp only [M.get_bind]
        split <;> exact hp
      · unfold Mach.Reports at this
        split at this
        · rw [this] at hp; rw [M.bind_of_exc this]; exact hp
        · rw [this] at hp; rw [M.bind_of_ok this]
          simp only [M.get_bind]
          split <;> exact hp
    | false =>
      have hp := getNext_post' K hm rs h
      obtain ⟨e, c', n', _, h3⟩ := getNext_row' hm (rs := rs) (K.clean h he) he
      cases hr : Mach.getNext x rs t with
      | ok o t1 =>
        rw [hr] at hp
        rw [M.bind_of_ok hr]
        obtain ⟨_, hv⟩ := h3.valid hr
        simp only [M.get_bind]
        split at hv
        · obtain ⟨rfl, hv⟩ := hv
          simp only [hv, if_true]
          exact hp
        · simp only [hv.1, Bool.false_eq_true, if_false]
          exact hp
      | exc e t1 => rw [hr] at hp; rw [M.bind_of_exc hr]; exact hp
      | ub => rw [hr] at hp; exact hp.elim
      | nofuel => rw [hr] at hp; exact hp.elim
  | ignoreNext =>
    simp only [Op.mexec]
    rw [M.bind_of_ok (onRd_of_ok (MRd.readNext_eq x _))]
    exact K.read h
  | header => exact Post.bind ((getHeader_post hx t).mono fun t' hs => K.hdr h hs) (fun _ _ h => h) fun _ h => h
  | rawHeader => exact h
  | fieldExists f => exact Post.bind ((fieldExists_post hx f t).mono fun t' hs => K.hdr h hs) (fun _ _ h => h) fun _ h => h
  | useFields fs => exact Post.bind (useFields_post' K hx fs h) (fun _ _ h => h) fun _ h => h
  | chain a as =>
    simp only [Op.mexec]
    simp only [M.get_bind]
    cases he : t.eof with
    | true => exact h
    | false =>
      simp only [Bool.false_eq_true, if_false]
      refine Post.bind (P := I) ?_ (fun _ _ h => h) fun _ h => h
      by_cases hth : x.cfg.mode = .throw
      · obtain ⟨t', h1, h2⟩ := tryChain_throw' hm hth a as (K.clean h he) he
        split at h2
        · split at h2
          · rw [h2]; exact h1.inv' K h
          · rw [h2]; exact h1.inv' K h
        · rw [h2]; exact h1.inv' K h
      · obtain ⟨t1, t', h1, h2, h3, h4, _⟩ := tryChain_spec' K hm hth a as h he
        rw [h4]; exact h3

theorem mexec_post {x : Ctx} (hx : x.Ok) (hm : x.cfg.multiline = false) (op : Op) {t : Mach} (h : MInv x t) :
    Post (MInv x) (op.mexec x t) :=
  mexec_post' (MInv.kept x) hx hm op h

end Ssp
