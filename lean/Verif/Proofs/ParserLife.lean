import Verif.Proofs.ParserRow
/-!
# Sequences of `get_next`
-/
namespace Ssp
open Spec

theorem Parser.run_append {x : Ctx} : ∀ (ops : List Op) {ops' : List Op} {s s1 s2 : Parser} {os os' : List Obs},
    Parser.run x ops s = some (os, s1) → Parser.run x ops' s1 = some (os', s2) →
    Parser.run x (ops ++ ops') s = some (os ++ os', s2) := by
  intro ops
  induction ops with
  | nil => intro ops' s s1 s2 os os' h h'; cases h; exact h'
  | cons op ops ih =>
    intro ops' s s1 s2 os os' h h'
    unfold Parser.run at h
    cases h1 : Parser.step x op s with
    | none => rw [h1] at h; cases h
    | some p =>
      obtain ⟨o, s3⟩ := p
      rw [h1] at h
      simp only at h
      cases h2 : Parser.run x ops s3 with
      | none => rw [h2] at h; cases h
      | some p =>
        obtain ⟨os3, s4⟩ := p
        rw [h2] at h
        cases h
        have := ih h2 h'
        simp [Parser.run, h1, this]

theorem Parser.Created.reach {x : Ctx} {s : Parser} (h : Parser.Created x s) : Parser.Reach x s := ⟨s, [], [], h, rfl⟩

theorem Parser.Reach.run {x : Ctx} {s s' : Parser} (h : Parser.Reach x s) {ops : List Op} {os : List Obs}
    (hr : Parser.run x ops s = some (os, s')) : Parser.Reach x s' := by
  obtain ⟨s0, ops0, os0, h1, h2⟩ := h
  exact ⟨s0, ops0 ++ ops, _, h1, Parser.run_append ops0 h2 hr⟩

theorem Parser.Reach.step {x : Ctx} {s s' : Parser} (h : Parser.Reach x s) {op : Op} {o : Obs}
    (hr : Parser.step x op s = some (o, s')) : Parser.Reach x s' := by
  refine h.run (ops := [op]) (os := [o]) ?_
  simp [Parser.run, hr]

/-! ### covered lives -/

theorem Parser.Covered.append {x : Ctx} : ∀ {ops : List Op} {ops' : List Op} {s s1 : Parser} {os : List Obs},
    Parser.Covered x ops s → Parser.run x ops s = some (os, s1) → Parser.Covered x ops' s1 → Parser.Covered x (ops ++ ops') s := by
  intro ops
  induction ops with
  | nil => intro ops' s s1 os _ h h'; cases h; exact h'
  | cons op ops ih =>
    intro ops' s s1 os hc h h'
    refine ⟨hc.1, fun o s' hs => ?_⟩
    unfold Parser.run at h
    rw [hs] at h
    simp only at h
    cases h2 : Parser.run x ops s' with
    | none => rw [h2] at h; cases h
    | some p =>
      obtain ⟨os3, s4⟩ := p
      rw [h2] at h
      cases h
      exact ih (hc.2 o s' hs) h2 h'

/-- Calls that are covered in any state. -/
theorem Parser.Covered.all {x : Ctx} : ∀ {ops : List Op} {s : Parser}, (∀ op ∈ ops, ∀ n e, op.Tame x n e) → Parser.Covered x ops s
  | [], _, _ => trivial
  | _ :: _, _, h => ⟨h _ (by simp) _ _, fun _ _ _ => .all fun op ho => h op (by simp [ho])⟩

/-- Without `or_else` everything is covered. -/
theorem Parser.Covered.noOrElse {x : Ctx} {ops : List Op} {s : Parser} (h : ∀ a as, Op.chain a as ∈ ops → as = []) : Parser.Covered x ops s :=
  .all fun op ho _ _ _ a as e => .inl (h a as (by rw [← e]; exact ho))

/-- Without multiline everything is covered. -/
theorem Parser.Covered.single {x : Ctx} (hm : x.cfg.multiline = false) {ops : List Op} {s : Parser} : Parser.Covered x ops s :=
  .all fun op _ _ _ h => by rw [hm] at h; cases h

theorem Parser.Created.reachT {x : Ctx} {s : Parser} (h : Parser.Created x s) : Parser.ReachT x s :=
  ⟨s, [], [], h, trivial, rfl⟩

theorem Parser.ReachT.run {x : Ctx} {s s' : Parser} (h : Parser.ReachT x s) {ops : List Op} (hT : Parser.Covered x ops s)
    {os : List Obs} (hr : Parser.run x ops s = some (os, s')) : Parser.ReachT x s' := by
  obtain ⟨s0, ops0, os0, h1, hT0, h2⟩ := h
  exact ⟨s0, ops0 ++ ops, _, h1, hT0.append h2 hT, Parser.run_append ops0 h2 hr⟩

theorem Parser.ReachT.step {x : Ctx} {s s' : Parser} (h : Parser.ReachT x s) {op : Op} (hT : op.Tame x s.line s.eof) {o : Obs}
    (hr : Parser.step x op s = some (o, s')) : Parser.ReachT x s' := by
  refine h.run (ops := [op]) ⟨hT, fun _ _ _ => trivial⟩ (os := [o]) ?_
  simp [Parser.run, hr]

theorem Op.Tame.getNext {x : Ctx} {n : Nat} {e : Bool} {rs : List Req} : (Op.getNext rs).Tame x n e := by intro _ a as h; cases h

/-- without multiline every life is covered -/
theorem Parser.Reach.tame {x : Ctx} (hm : x.cfg.multiline = false) {s : Parser} (h : Parser.Reach x s) : Parser.ReachT x s := by
  obtain ⟨s0, ops, os, h1, h2⟩ := h
  exact ⟨s0, ops, os, h1, .single hm, h2⟩

theorem Parser.ReachT.reach {x : Ctx} {s : Parser} (h : Parser.ReachT x s) : Parser.Reach x s := by
  obtain ⟨s0, ops, os, h1, _, h2⟩ := h
  exact ⟨s0, ops, os, h1, h2⟩

/-- what `get_next` returns, as observed -/
def retOf (x : Ctx) (s' : Parser) : Except Bytes (List Val) → Ret
  | .ok vs => .row (some vs)
  | .error m => if x.cfg.mode = .throw then .thrown (x.at s'.line m) else .row none

theorem RowOut.step {x : Ctx} {n : Nat} {rs : List Req} {s s' : Parser} {res : Except Bytes (List Val)}
    (h : RowOut x n (Parser.getNext x rs s) s' res) :
    Parser.step x (.getNext rs) s = some (Parser.observe x (retOf x s' res) s', s') := by
  unfold RowOut at h
  unfold Parser.step Op.exec
  cases res with
  | ok vs =>
    obtain ⟨h1, h2⟩ := h
    simp only
    rw [M.bind_of_ok h1]
    simp [h2, retOf]
  | error m =>
    simp only at h
    by_cases hth : x.cfg.mode = .throw
    · rw [if_pos hth] at h
      simp only
      rw [M.bind_of_exc h]
      simp [retOf, hth]
    · rw [if_neg hth] at h
      obtain ⟨vs, h1, h2, _⟩ := h
      simp only
      rw [M.bind_of_ok h1]
      simp [retOf, hth, h2]

/-- a `get_next` that reports an error, as observed -/
theorem step_of_error {x : Ctx} {rs : List Req} {s s' : Parser}
    (h : (∃ e, Parser.getNext x rs s = .exc e s') ∨ ∃ vs, Parser.getNext x rs s = .ok vs s' ∧ s'.valid x.cfg = false) :
    ∃ o, Parser.step x (.getNext rs) s = some (o, s') ∧ o.eof = s'.eof ∧
      (o.ret = .row none ∧ o.valid = false ∨ ∃ m, o.ret = .thrown m) := by
  unfold Parser.step Op.exec
  rcases h with ⟨e, h⟩ | ⟨vs, h, hv⟩
  · simp only
    rw [M.bind_of_exc h]
    exact ⟨_, rfl, rfl, .inr ⟨e, rfl⟩⟩
  · simp only
    rw [M.bind_of_ok h]
    simp only [M.get_bind, hv, Bool.false_eq_true, if_false, M.pure_apply]
    exact ⟨_, rfl, rfl, .inl ⟨rfl, hv⟩⟩

theorem delivers_of {x : Ctx} {n : Nat} {rs : List Req} {s s' : Parser} {res : Except Bytes (List Val)} {r : Res Conv (List Val)}
    (h : RowOut x n (Parser.getNext x rs s) s' res) (hy : ∀ vs, res = .ok vs ↔ Ssp.Yields x.cfg r vs) :
    Delivers x (Parser.observe x (retOf x s' res) s') r := by
  unfold Delivers Parser.observe
  cases res with
  | ok vs =>
    refine ⟨fun ws => ?_, .inl ⟨vs, (hy vs).mp rfl⟩⟩
    rw [← hy ws]
    simp [retOf]
  | error m =>
    refine ⟨fun ws => ?_, .inr ?_⟩
    · rw [← hy ws]
      simp only [retOf, reduceCtorEq, iff_false]
      split <;> simp
    · unfold RowOut at h
      simp only at h
      simp only [retOf]
      split
      · exact .inr ⟨_, rfl⟩
      · rename_i hth
        rw [if_neg hth] at h
        obtain ⟨vs, _, h2, _⟩ := h
        exact .inl ⟨rfl, h2⟩

/-- `get_next` again and again -/
theorem rows_run {x : Ctx} (hx : x.Ok) (hm : x.cfg.multiline = false) : ∀ (reqs : List (List Req)) {s : Parser},
    Parser.Reach x s → (∀ rs ∈ reqs, rs ≠ []) →
    ∃ os s', Parser.run x (reqs.map .getNext) s = some (os, s') ∧
      ∀ k rs, reqs[k]? = some rs → ∃ o, os[k]? = some o ∧ o.eof = decide ((x.rest s.line).length ≤ k + 1) ∧
        match (x.rest s.line)[k]? with
        | some l => Delivers x o (s.fresh x rs l)
        | none => NoRow o := by
  intro reqs
  induction reqs with
  | nil => intro s _ _; exact ⟨[], s, rfl, by intro k rs h; simp at h⟩
  | cons rs reqs ih =>
    intro s h hne
    have hrs : rs ≠ [] := hne rs (by simp)
    cases hr : x.rest s.line with
    | nil =>
      obtain ⟨s1, _, _, h3, h4, h5⟩ := over_core hx hm h hrs hr
      obtain ⟨o, h6, h7, h8⟩ := step_of_error h3
      obtain ⟨os, s', h9, h10⟩ := ih (h.step h6) (fun rs h => hne rs (by simp [h]))
      refine ⟨o :: os, s', by simp [Parser.run, h6, h9], ?_⟩
      intro k rs' hk
      cases k with
      | zero => exact ⟨o, rfl, by rw [h7, h4]; simp, h8⟩
      | succ k =>
        obtain ⟨o', h11, h12, h13⟩ := h10 k rs' hk
        rw [h5] at h12 h13
        exact ⟨o', h11, by rw [h12]; simp, by simpa using h13⟩
    | cons l ls =>
      obtain ⟨s1, res, h1, h2, h3, _, _, h4, _, h5, _⟩ := row_core hx hm h hrs hr
      have hstep := h1.step
      obtain ⟨os, s', h9, h10⟩ := ih (h.step hstep) (fun rs h => hne rs (by simp [h]))
      refine ⟨Parser.observe x (retOf x s1 res) s1 :: os, s', by simp [Parser.run, hstep, h9], ?_⟩
      intro k rs' hk
      cases k with
      | zero =>
        cases hk
        refine ⟨_, rfl, ?_, ?_⟩
        · show s1.eof = _
          rw [h3]
          cases ls <;> simp
        · exact delivers_of h1 h5
      | succ k =>
        obtain ⟨o', h11, h12, h13⟩ := h10 k rs' hk
        rw [h2] at h12 h13
        refine ⟨o', h11, ?_, ?_⟩
        · rw [h12]; simp
        · have hf : ∀ l, s1.fresh x rs' l = s.fresh x rs' l := by intro l; unfold Parser.fresh; rw [h4]
          simp only [hf] at h13
          simpa using h13

theorem created_rest {x : Ctx} (hx : x.Good) {s : Parser} (h : Parser.Created x s) :
    x.rest s.line = x.rows ∧ s.eof = (x.rest 0).isEmpty ∧ (∀ l, s.converter l = { spl := { mem := l ++ [NUL] } }) ∧
      s.rd.lineNumber ≤ (lines x.src.data).length + 2 := by
  obtain ⟨t, hn, hp⟩ := h.sim hx
  rw [hp.line, hp.eof]
  have hsel : t.rd.sel = [] ∧ t.rd.ncols = 0 → ∀ l, s.converter l = { spl := { mem := l ++ [NUL] } } := by
    intro h l
    unfold Parser.converter
    rw [hp.base.cur.sel, hp.base.cur.ncols, h.1, h.2]
  have hfirst := (init_mbase x).rest_read (Mach.first x) rfl
  have h0 : rowsOf x.cfg.ignoreEmpty (Mach.init x).rd.todo = x.rest 0 := by rw [rest_eq]; rfl
  rw [h0] at hfirst
  have heof : (Mach.first x).eof = (x.rest 0).isEmpty := by
    show (!((Mach.init x).rd.readR x).1) = _
    rw [hfirst.2]; simp
  have hfi := first_inv x
  obtain ⟨b1, b2, b3, b4, b5, b6, b7, b8, b9⟩ := (init_mbase x).read
  have hlen : (lines x.src.data).length = (rawLines x.src.data).length := by simp [lines]
  have hfl : (Mach.first x).rd.ln ≤ (lines x.src.data).length + 1 := by
    rw [hlen]
    cases hr : ((Mach.init x).rd.readR x).1 with
    | true =>
      obtain ⟨blank, l, rest, e1, e2, e3, e4⟩ := readGo_ok hr
      have : (Mach.first x).rd.ln = 0 + blank.length + 1 := congrArg MRd.ln e4
      have h2 := congrArg List.length e1
      have : (Mach.init x).rd.todo.length = (rawLines x.src.data).length := rfl
      simp at h2
      omega
    | false =>
      obtain ⟨e1, look, crlf, e2, e3⟩ := readGo_eof hr
      have : (Mach.first x).rd.ln = 0 + (Mach.init x).rd.todo.length + 1 := congrArg MRd.ln e3
      have h2 : (Mach.init x).rd.todo.length = (rawLines x.src.data).length := rfl
      omega
  rcases hn with hn | ⟨hd, _, e, _, rfl⟩
  · rw [firstLine_eq] at hn
    cases hn
    by_cases hih : x.cfg.ignoreHeader = true
    · simp only [hih, if_true] at hp hsel ⊢
      obtain ⟨c1, c2, c3, c4, c5, c6, c7, c8, c9⟩ := hfi.base.read
      have hsecond := hfi.base.rest_read { Mach.first x with rd := ((Mach.first x).rd.readR x).2 } rfl
      have e1 : ((Mach.first x).rd.readR x).2.sel = (Mach.first x).rd.sel := c6
      have e2 : ((Mach.first x).rd.readR x).2.ncols = (Mach.first x).rd.ncols := c7
      refine ⟨?_, heof, hsel ⟨by rw [e1]; exact b6, by rw [e2]; exact b7⟩, ?_⟩
      · rw [hsecond.1]
        unfold Ctx.rows
        rw [if_pos hih]
        cases hr : x.rest 0 with
        | nil =>
          have := hfirst.2
          rw [hr] at this
          rw [(b3 (by simpa using this)).2.1 |> fun h => (show (Mach.first x).rd.todo = [] from h)]
          rfl
        | cons l ls =>
          obtain ⟨_, _, _, h4⟩ := hfi.rest_here (hfirst.1.trans hr)
          rw [h4]; rfl
      · rw [hp.base.ln]
        simp only
        cases hr : ((Mach.first x).rd.readR x).1 with
        | true =>
          have := (c2 hr).1.look
          have h1 : ((Mach.first x).rd.readR x).2.ln - 1 < (rawLines x.src.data).length := by
            false_or_by_contra
            rw [List.getElem?_eq_none (by omega)] at this
            cases this
          omega
        | false =>
          obtain ⟨e1, look, crlf, e2, e3⟩ := readGo_eof hr
          have h1 : ((Mach.first x).rd.readR x).2.ln = (Mach.first x).rd.ln + (Mach.first x).rd.todo.length + 1 := congrArg MRd.ln e3
          have h2 : (Mach.first x).rd.todo.length = (rawLines x.src.data).length - (Mach.first x).rd.ln := by
            rw [hfi.base.todo]; simp
          omega
    · simp only [hih, Bool.false_eq_true, if_false] at hp hsel ⊢
      refine ⟨?_, heof, hsel ⟨b6, b7⟩, ?_⟩
      · have : x.rows = x.rest 0 := by unfold Ctx.rows; simp [hih]
        rw [this]
        exact hfirst.1
      · rw [hp.base.ln]
        simp only
        omega
  · have h1 : x.rest 0 = [] := by rw [rest_eq, hd]; rfl
    refine ⟨?_, by rw [h1]; rfl, hsel ⟨rfl, rfl⟩, ?_⟩
    · have : x.rows = [] := by unfold Ctx.rows; rw [h1]; simp
      rw [this]
      exact h1
    · rw [hp.base.ln]; exact Nat.zero_le _

end Ssp
