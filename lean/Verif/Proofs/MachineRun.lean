import Verif.Proofs.MachineExec
/-!
# The life of a parser and of the row machine
-/
namespace Ssp
open Spec

/-- what is needed to talk about the calls in `T`: the machine is simulated, and no call of it leaves its invariant -/
structure Ctx.LiveFor (x : Ctx) (T : Nat → Bool → Op → Prop) : Prop where
  good : x.Good
  post : ∀ (op : Op) {t : Mach}, T t.line t.eof op → MInv x t → Post (MInv x) (op.mexec x t)

/-- for all calls -/
abbrev Ctx.Live (x : Ctx) : Prop := x.LiveFor fun _ _ _ => True

theorem Ctx.Ok.live {x : Ctx} (hx : x.Ok) (hm : x.cfg.multiline = false) : x.Live :=
  ⟨hx.good hm, fun op _ _ h => mexec_post hx hm op h⟩

/-! ## Construction -/

/-- the machine after construction -/
def MNew (x : Ctx) (t : Mach) : Prop :=
  Mach.firstLine x (Mach.init x) = .ok () t ∨
  (x.src.data = [] ∧ x.cfg.mode ≠ .throw ∧ ∃ e, e.valid x.cfg.mode = false ∧ t = { Mach.init x with err := e, eof := true })

/-- the machine after `read_line` in the constructor -/
def Mach.first (x : Ctx) : Mach :=
  { rd := ((Mach.init x).rd.readR x).2, eof := !((Mach.init x).rd.readR x).1 }

theorem firstLine_eq (x : Ctx) : Mach.firstLine x (Mach.init x) =
    .ok () (if x.cfg.ignoreHeader then { Mach.first x with rd := ((Mach.first x).rd.readR x).2 }
      else { Mach.first x with rawHeader := (Mach.first x).rd.look }) := by
  have hrl : Mach.readLine x (Mach.init x) = .ok () (Mach.first x) := rfl
  unfold Mach.firstLine
  rw [M.bind_of_ok hrl]
  split
  · rw [M.bind_of_ok (onRd_of_ok (MRd.readNext_eq x _))]; rfl
  · rfl

theorem init_mbase (x : Ctx) : MBase x (Mach.init x).rd :=
  ⟨rfl, rfl, by intro h; exact absurd rfl h, by intro _ h; exact absurd rfl h⟩

theorem first_inv (x : Ctx) : MInv x (Mach.first x) := by
  have := MInv.readFrom (t := Mach.init x) (init_mbase x) (Mach.init x).err
  exact this

theorem MNew.inv {x : Ctx} {t : Mach} (h : MNew x t) : MInv x t := by
  rcases h with h | ⟨h1, _, e, _, rfl⟩
  · rw [firstLine_eq] at h
    cases h
    split
    · exact (first_inv x).read
    · exact ⟨(first_inv x).base, (first_inv x).here, (first_inv x).over, (first_inv x).clean⟩
  · have ht : (Mach.init x).rd.todo = [] := by show rawLines _ = []; rw [h1]; rfl
    refine ⟨init_mbase x, by simp, fun _ => ⟨ht, .inl ⟨rfl, h1, rfl⟩⟩, by simp⟩

theorem null_sim {x : Ctx} (hd : x.src.data = []) {m : Bytes} (hm : m ≠ []) {s : Parser}
    (h : (Parser.handleError x.cfg m >>= fun _ => M.modify fun s => { s with eof := true }) ({} : Parser) = .ok () s) :
    ∃ t, MNew x t ∧ PRel x s t := by
  have ht : (Mach.init x).rd.todo = [] := by show rawLines _ = []; rw [hd]; rfl
  have key : x.cfg.mode ≠ .throw ∧ s = { err := ({} : ErrSt).set x.cfg.mode m, eof := true } := by
    unfold Parser.handleError at h
    cases hmode : x.cfg.mode <;> rw [hmode] at h <;> simp at h <;> exact ⟨by simp, h.symm⟩
  obtain ⟨hth, rfl⟩ := key
  refine ⟨{ Mach.init x with err := ({} : ErrSt).set x.cfg.mode m, eof := true },
    .inr ⟨hd, hth, _, ErrSt.valid_set hth hm _, rfl⟩, ?_⟩
  exact { err := rfl, header := rfl, rawHeader := rfl, eof := rfl, base := init_base x, eofd := fun _ => ht,
          look := by simp, idle := by simp, plain := by simp }

theorem Parser.Created.sim {x : Ctx} (hx : x.Good) {s : Parser} (h : Parser.Created x s) : ∃ t, MNew x t ∧ PRel x s t := by
  have hfl : Parser.firstLine x {} = .ok () s → ∃ t, MNew x t ∧ PRel x s t := by
    intro h
    have := firstLine_sim hx
    have he := firstLine_eq x
    generalize hX : (if x.cfg.ignoreHeader then ({ Mach.first x with rd := ((Mach.first x).rd.readR x).2 } : Mach)
      else { Mach.first x with rawHeader := (Mach.first x).rd.look }) = t at he
    rw [he, h] at this
    obtain ⟨a, s', e1, _, e2⟩ := this
    cases e1
    exact ⟨t, .inl he, e2⟩
  have hne : ∀ t : Bytes, t ≠ [] → x.fileName ++ t ≠ [] := by intro t h; simp [h]
  cases h with
  | file hs h =>
    unfold Parser.newFile at h
    rw [hs] at h
    exact hfl h
  | missing hs h =>
    unfold Parser.newFile at h
    rw [hs] at h
    exact null_sim (by rw [hs]; rfl) (hne _ (by decide)) h
  | @buffer p n hs h =>
    unfold Parser.newBuffer at h
    rw [hs] at h
    cases p with
    | none => exact null_sim (by rw [hs]; rfl) (hne _ (by decide)) h
    | some d => exact hfl h

/-! ## Calls -/

def Mach.observe (x : Ctx) (r : Ret) (s : Mach) : Obs :=
  { ret := r, valid := s.valid x.cfg, msg := s.err.msg, eof := s.eof, line := s.line, position := s.rd.pos }

def Mach.step (x : Ctx) (op : Op) (s : Mach) : Option (Obs × Mach) :=
  match op.mexec x s with
  | .ok r s' => some (observe x r s', s')
  | .exc e s' => some (observe x (.thrown e) s', s')
  | .ub => none
  | .nofuel => none

def Mach.run (x : Ctx) : List Op → Mach → Option (List Obs × Mach)
  | [], s => some ([], s)
  | op :: ops, s =>
    match Mach.step x op s with
    | none => none
    | some (o, s') =>
      match Mach.run x ops s' with
      | none => none
      | some (os, s'') => some (o :: os, s'')

/-- Two observations are the same; of the positions this is required up to the first time the end of the input was
found. -/
structure ObsSame (x : Ctx) (o o' : Obs) : Prop where
  ret : o.ret = o'.ret
  valid : o.valid = o'.valid
  msg : o.msg = o'.msg
  eof : o.eof = o'.eof
  line : o.line = o'.line
  position : (o'.line < (lines x.src.data).length ∨ (x.cfg.multiline = false ∧ o'.line ≤ (lines x.src.data).length) ∨ x.src.isBuf) →
    o.position = o'.position

theorem MInv.tries_of_line {x : Ctx} {t : Mach} (h : MInv x t) (hl : t.line < (lines x.src.data).length) : t.rd.tries = 0 := by
  have hlen : (lines x.src.data).length = (rawLines x.src.data).length := by simp [lines]
  rw [hlen] at hl
  unfold Mach.line at hl
  cases he : t.eof with
  | false =>
    rcases h.here he with h | h
    · exact h.tries
    · have := h.ln; split at hl <;> omega
  | true =>
    rcases (h.over he).2 with ⟨_, h2, _⟩ | h
    · rw [h2] at hl; simp [rawLines] at hl
    · have := h.ln; split at hl <;> omega

theorem MInv.tries_of_line' {x : Ctx} {t : Mach} (h : MInv x t) (hm : x.cfg.multiline = false)
    (hl : t.line ≤ (lines x.src.data).length) : t.rd.tries ≤ 1 := by
  have hlen : (lines x.src.data).length = (rawLines x.src.data).length := by simp [lines]
  rw [hlen] at hl
  false_or_by_contra
  have := h.base.late hm (by omega)
  unfold Mach.line at hl
  split at hl <;> omega

theorem observe_sim {x : Ctx} {s : Parser} {t : Mach} (h : PRel x s t) (hi : MInv x t) (r : Ret) :
    ObsSame x (Parser.observe x r s) (Mach.observe x r t) := by
  refine ⟨rfl, h.valid, congrArg ErrSt.msg h.err, h.eof, h.line, fun hp => h.base.pos ?_⟩
  rcases hp with hp | ⟨hm, hp⟩ | hp
  · have := hi.tries_of_line hp; exact .inl (by omega)
  · exact .inl (hi.tries_of_line' hm hp)
  · exact .inr hp

theorem step_simT {x : Ctx} {T : Nat → Bool → Op → Prop} (hx : x.LiveFor T) {s : Parser} {t : Mach} (op : Op) (hop : T s.line s.eof op)
    (h : PRel x s t) (hi : MInv x t) :
    ∃ o o' s' t', Parser.step x op s = some (o, s') ∧ Mach.step x op t = some (o', t') ∧ PRel x s' t' ∧ MInv x t' ∧
      ObsSame x o o' := by
  have hsim := exec_sim hx.good op h
  rw [h.line, h.eof] at hop
  have hpost := hx.post op hop hi
  unfold Parser.step Mach.step
  cases hm : op.mexec x t with
  | ok r t' =>
    rw [hm] at hsim hpost
    obtain ⟨r', s', h1, rfl, h3⟩ := hsim
    rw [h1]
    exact ⟨_, _, _, _, rfl, rfl, h3, hpost, observe_sim h3 hpost _⟩
  | exc e t' =>
    rw [hm] at hsim hpost
    obtain ⟨s', h1, h3⟩ := hsim
    rw [h1]
    exact ⟨_, _, _, _, rfl, rfl, h3, hpost, observe_sim h3 hpost _⟩
  | ub => rw [hm] at hpost; exact hpost.elim
  | nofuel => rw [hm] at hpost; exact hpost.elim

theorem step_sim {x : Ctx} (hx : x.Live) {s : Parser} {t : Mach} (op : Op) (h : PRel x s t) (hi : MInv x t) :
    ∃ o o' s' t', Parser.step x op s = some (o, s') ∧ Mach.step x op t = some (o', t') ∧ PRel x s' t' ∧ MInv x t' ∧
      ObsSame x o o' := step_simT hx op trivial h hi

/-- each of the calls is in `T` when its turn comes -/
def Parser.TRun (x : Ctx) (T : Nat → Bool → Op → Prop) : List Op → Parser → Prop
  | [], _ => True
  | op :: ops, s => T s.line s.eof op ∧ ∀ o s', Parser.step x op s = some (o, s') → TRun x T ops s'

theorem Parser.TRun.all {x : Ctx} {T : Nat → Bool → Op → Prop} : ∀ (ops : List Op) (s : Parser), (∀ op ∈ ops, ∀ n e, T n e op) →
    TRun x T ops s
  | [], _, _ => trivial
  | _ :: ops, _, h => ⟨h _ (by simp) _ _, fun _ _ _ => all ops _ fun o ho => h o (by simp [ho])⟩

theorem Parser.Covered.run {x : Ctx} : ∀ {ops : List Op} {s : Parser}, Parser.Covered x ops s → Parser.TRun x (fun n e op => op.Tame x n e) ops s
  | [], _, _ => trivial
  | _ :: _, _, h => ⟨h.1, fun o s' hs => (h.2 o s' hs).run⟩

theorem run_simT {x : Ctx} {T : Nat → Bool → Op → Prop} (hx : x.LiveFor T) : ∀ (ops : List Op) {s : Parser} {t : Mach}, Parser.TRun x T ops s → PRel x s t → MInv x t →
    ∃ os os' s' t', Parser.run x ops s = some (os, s') ∧ Mach.run x ops t = some (os', t') ∧ PRel x s' t' ∧ MInv x t' ∧
      All2 (ObsSame x) os os' := by
  intro ops
  induction ops with
  | nil => intro s t _ h hi; exact ⟨[], [], s, t, rfl, rfl, h, hi, .nil⟩
  | cons op ops ih =>
    intro s t hT h hi
    obtain ⟨o, o', s', t', h1, h2, h3, h4, h5⟩ := step_simT hx op hT.1 h hi
    obtain ⟨os, os', s'', t'', h6, h7, h8, h9, h10⟩ := ih (hT.2 _ _ h1) h3 h4
    refine ⟨o :: os, o' :: os', s'', t'', ?_, ?_, h8, h9, .cons h5 h10⟩
    · simp [Parser.run, h1, h6]
    · simp [Mach.run, h2, h7]

theorem run_sim {x : Ctx} (hx : x.Live) (ops : List Op) {s : Parser} {t : Mach} (h : PRel x s t) (hi : MInv x t) :
    ∃ os os' s' t', Parser.run x ops s = some (os, s') ∧ Mach.run x ops t = some (os', t') ∧ PRel x s' t' ∧ MInv x t' ∧
      All2 (ObsSame x) os os' := run_simT hx ops (.all _ _ fun _ _ _ _ => trivial) h hi

/-- a machine at some point of its life -/
def MReach (x : Ctx) (t : Mach) : Prop := ∃ t0 ops os, MNew x t0 ∧ Mach.run x ops t0 = some (os, t)

theorem Parser.Reach.sim {x : Ctx} (hx : x.Live) {s : Parser} (h : Parser.Reach x s) :
    ∃ t, PRel x s t ∧ MInv x t ∧ MReach x t := by
  obtain ⟨s0, ops, os, h1, h2⟩ := h
  obtain ⟨t0, h3, h4⟩ := h1.sim hx.good
  obtain ⟨os1, os', s', t', h5, h6, h7, h8, _⟩ := run_sim hx ops h4 h3.inv
  rw [h2] at h5
  cases h5
  exact ⟨t', h7, h8, t0, ops, os', h3, h6⟩

theorem Parser.ReachT.sim {x : Ctx} (hx : x.LiveFor fun n e op => op.Tame x n e) {s : Parser} (h : Parser.ReachT x s) :
    ∃ t, PRel x s t ∧ MInv x t ∧ MReach x t := by
  obtain ⟨s0, ops, os, h1, hT, h2⟩ := h
  obtain ⟨t0, h3, h4⟩ := h1.sim hx.good
  obtain ⟨os1, os', s', t', h5, h6, h7, h8, _⟩ := run_simT hx ops hT.run h4 h3.inv
  rw [h2] at h5
  cases h5
  exact ⟨t', h7, h8, t0, ops, os', h3, h6⟩

/-- what holds of every machine -/
theorem MReach.ind {x : Ctx} {P : Mach → Prop} (h0 : ∀ t, MNew x t → P t) (hs : ∀ t op o t', P t → Mach.step x op t = some (o, t') → P t')
    {t : Mach} (h : MReach x t) : P t := by
  obtain ⟨t0, ops, os, h1, h2⟩ := h
  have key : ∀ (ops : List Op) (t0 : Mach) os, P t0 → Mach.run x ops t0 = some (os, t) → P t := by
    intro ops
    induction ops with
    | nil => intro t0 os hp h; simp [Mach.run] at h; exact h.2 ▸ hp
    | cons op ops ih =>
      intro t0 os hp h
      unfold Mach.run at h
      split at h
      · cases h
      · rename_i o t1 h1
        split at h
        · cases h
        · rename_i os' t2 h2
          cases h
          exact ih t1 _ (hs _ _ _ _ hp h1) h2
  exact key ops t0 os (h0 _ h1) h2

end Ssp
