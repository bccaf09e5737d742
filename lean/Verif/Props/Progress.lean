import Verif.Props.LastSelection
/-!
# Every read advances, `line()` never goes back (C79)
-/
namespace Ssp
open Spec

/-- the calls that go on in the input: `get_next` (and `get_object`, ...), `ignore_next`, `try_next` with what follows it -/
def Op.Advances : Op → Bool
  | .getNext _ | .ignoreNext | .chain _ _ => true
  | _ => false

namespace Progress
open Parser
variable {x : Ctx} {α β : Type} {n : Nat}

/-- if the call comes back with a result, `P`; with an exception, `Q` -/
def Part2 (P Q : Parser → Prop) : Res Parser α → Prop
  | .ok _ t => P t
  | .exc _ t => Q t
  | _ => True

theorem Part2.bind {P Q P' : Parser → Prop} {m : M Parser α} {f : α → M Parser β} {s : Parser} (h : Part2 P Q (m s))
    (hf : ∀ a t, P t → Part2 P' Q (f a t)) : Part2 P' Q ((m >>= f) s) := by
  rw [M.bind_apply]
  cases hm : m s with
  | ok a t' => rw [hm] at h; exact hf a t' h
  | exc e t' => rw [hm] at h; exact h
  | ub => trivial
  | nofuel => trivial

theorem Part2.mono {P Q P' Q' : Parser → Prop} {r : Res Parser α} (h : Part2 P Q r) (hp : ∀ t, P t → P' t) (hq : ∀ t, Q t → Q' t) :
    Part2 P' Q' r := by
  cases r with
  | ok a t => exact hp _ h
  | exc e t => exact hq _ h
  | ub => trivial
  | nofuel => trivial

theorem Part2.tryCatch {P Q P' Q' : Parser → Prop} {m : M Parser α} {k : Bytes → M Parser α} {s : Parser} (h : Part2 P Q (m s))
    (hp : ∀ t, P t → P' t) (hk : ∀ e t, Q t → Part2 P' Q' (k e t)) : Part2 P' Q' (Parser.tryCatch m k s) := by
  unfold Parser.tryCatch
  cases hm : m s with
  | ok a t => rw [hm] at h; exact hp _ h
  | exc e t => rw [hm] at h; exact hk e t h
  | ub => trivial
  | nofuel => trivial

theorem Part2.no {P Q Q' : Parser → Prop} {m : M Parser α} {s : Parser} (h : Part2 P Q (m s)) (hn : NoExc m) : Part2 P Q' (m s) := by
  cases hm : m s with
  | ok a t => rw [hm] at h; exact h
  | exc e t => exact absurd hm (hn.no _ _ _)
  | ub => trivial
  | nofuel => trivial

/-- at least `n` lines are counted -/
def A (x : Ctx) (n : Nat) (s : Parser) : Prop := (Parser.world x).I s ∧ n ≤ s.rd.lineNumber
/-- more than `n` lines are counted -/
def B (x : Ctx) (n : Nat) (s : Parser) : Prop := (Parser.world x).I s ∧ n < s.rd.lineNumber

theorem B.a {s : Parser} (h : B x n s) : A x n s := ⟨h.1, Nat.le_of_lt h.2⟩

theorem ext_A {D E : Parser → Prop} {m m' : M Parser α} (h : (Parser.world x).Ext D E m m') {s : Parser} (hs : A x n s) :
    Part2 (A x n) (A x n) (m s) := by
  cases hm : m s with
  | ok a t => obtain ⟨h1, h2, _⟩ := h.ok s hs.1 a t hm; exact ⟨h1, Nat.le_trans hs.2 h2.2⟩
  | exc a t => obtain ⟨h1, h2, _⟩ := h.exc s hs.1 a t hm; exact ⟨h1, Nat.le_trans hs.2 h2.2⟩
  | ub => trivial
  | nofuel => trivial

theorem ext_B {D E : Parser → Prop} {m m' : M Parser α} (h : (Parser.world x).Ext D E m m') {s : Parser} (hs : B x n s) :
    Part2 (B x n) (B x n) (m s) := by
  cases hm : m s with
  | ok a t => obtain ⟨h1, h2, _⟩ := h.ok s hs.1 a t hm; exact ⟨h1, Nat.lt_of_lt_of_le hs.2 h2.2⟩
  | exc a t => obtain ⟨h1, h2, _⟩ := h.exc s hs.1 a t hm; exact ⟨h1, Nat.lt_of_lt_of_le hs.2 h2.2⟩
  | ub => trivial
  | nofuel => trivial

abbrev none' : Parser → Prop := fun _ => True

theorem quiet_A {Q : Prop} {m : M Parser α} (h : Relates Q Quiet m) {s : Parser} (hs : A x n s) : Part2 (A x n) (A x n) (m s) :=
  ext_A (D := none') (E := none') (ext_quiet h) hs

theorem ignoreNext_B (hg : x.src.Grown x.src) (hf : x.src.Fine) {s : Parser} (hs : A x n s) {Q : Parser → Prop} :
    Part2 (B x n) Q (ignoreNext x s) := by
  have hext := ext_ignoreNext hg hf
  cases hm : ignoreNext x s with
  | ok b t =>
    refine ⟨(hext.ok s hs.1 b t hm).1, ?_⟩
    unfold ignoreNext onRd at hm
    cases hr : Reader.readNext x s.rd with
    | ok b r =>
      have := LastSel.readNext_counts hg hf hs.1.1 hr
      rw [hr] at hm
      cases hm
      exact Nat.lt_of_le_of_lt hs.2 this
    | exc _ _ => rw [hr] at hm; cases hm
    | ub => rw [hr] at hm; cases hm
    | nofuel => rw [hr] at hm; cases hm
  | exc e t =>
    unfold ignoreNext onRd at hm
    cases hr : Reader.readNext x s.rd with
    | exc e r => exact absurd hr ((Reader.noexc_readNext x).no _ _ _)
    | ok _ _ => rw [hr] at hm; cases hm
    | ub => rw [hr] at hm; cases hm
    | nofuel => rw [hr] at hm; cases hm
  | ub => trivial
  | nofuel => trivial

theorem readLine_B (hg : x.src.Grown x.src) (hf : x.src.Fine) {s : Parser} (hs : A x n s) {Q : Parser → Prop} :
    Part2 (B x n) Q (readLine x s) := by
  have hext := ext_readLine hg hf
  cases hm : readLine x s with
  | ok b t => exact ⟨(hext.ok s hs.1 b t hm).1, Nat.lt_of_le_of_lt hs.2 (LastSel.readLine_counts hg hf hs.1 hm)⟩
  | exc e t =>
    have hm' : (onRd (Reader.readNext x) >>= fun b => M.modify fun s => { s with eof := !b }) s = .exc e t := hm
    rw [M.bind_apply] at hm'
    unfold onRd at hm'
    cases hr : Reader.readNext x s.rd with
    | exc e r => exact absurd hr ((Reader.noexc_readNext x).no _ _ _)
    | ok _ _ => rw [hr] at hm'; cases hm'
    | ub => rw [hr] at hm'; cases hm'
    | nofuel => rw [hr] at hm'; cases hm'
  | ub => trivial
  | nofuel => trivial

theorem rethrow_B (e : Bytes) {s : Parser} (hs : B x n s) : Part2 (B x n) (B x n) (decorateRethrow x e s : Res Parser α) := hs

theorem parseRowIf_step (hg : x.src.Grown x.src) (hf : x.src.Fine) {s : Parser} (hs : A x n s) (he : s.eof = false) :
    Part2 (fun t => A x n t ∧ t.eof = false) (B x n) (parseRowIf x s) := by
  have hrd : Part2 (fun t => A x n t ∧ t.eof = false) (A x n) (onRd (Reader.parse x) s) := by
    cases hm : Reader.parse x s.rd with
    | ok a r =>
      obtain ⟨h1, h2, _⟩ := (Reader.ext_parse hg hf).ok s.rd hs.1.1 a r hm
      have e : onRd (Reader.parse x) s = .ok a { s with rd := r } := by unfold onRd; rw [hm]
      rw [e]
      exact ⟨⟨⟨h1, fun e => by rw [show s.eof = true from e] at he; cases he⟩, Nat.le_trans hs.2 h2.2⟩, he⟩
    | exc a r =>
      obtain ⟨h1, h2, _⟩ := (Reader.ext_parse hg hf).exc s.rd hs.1.1 a r hm
      have e : onRd (Reader.parse x) s = .exc a { s with rd := r } := by unfold onRd; rw [hm]
      rw [e]
      exact ⟨⟨h1, fun e => by rw [show s.eof = true from e] at he; cases he⟩, Nat.le_trans hs.2 h2.2⟩
    | ub =>
      have e : onRd (Reader.parse x) s = .ub := by unfold onRd; rw [hm]
      rw [e]; trivial
    | nofuel =>
      have e : onRd (Reader.parse x) s = .nofuel := by unfold onRd; rw [hm]
      rw [e]; trivial
  unfold parseRowIf
  rw [if_neg (by rw [he]; decide)]
  by_cases hm : x.cfg.mode = .throw
  · have e : parseRow x = Parser.tryCatch (onRd (Reader.parse x)) (fun e => readLine x >>= fun _ => decorateRethrow x e) := by
      unfold parseRow; rw [hm]
    rw [e]
    refine Part2.tryCatch hrd (fun _ h => h) fun e t h => ?_
    exact Part2.bind (P := B x n) (readLine_B hg hf h) fun _ t h => h
  · have e : parseRow x = onRd (Reader.parse x) := by
      unfold parseRow
      cases hc : x.cfg.mode with
      | throw => exact absurd hc hm
      | string => rfl
      | bool => rfl
    rw [e]
    exact hrd.no (noexc_onRd (Reader.noexc_parse x hm))

theorem convertRow_B (hg : x.src.Grown x.src) (hf : x.src.Fine) (rs : List Req) {s : Parser} (hs : A x n s) :
    Part2 (B x n) (B x n) (convertRow x rs s) := by
  have hc : Relates (x.cfg.mode = .throw) Quiet (onCur (Conv.convertCached x.cfg rs)) := quiet_onCur (Conv.keep_convertCached _ _)
  unfold convertRow
  cases hm : x.cfg.mode with
  | throw =>
    refine Part2.tryCatch (P := B x n) (Q := A x n) ?_ (fun _ h => h) fun e t h => ?_
    · refine Part2.bind (quiet_A hc hs) fun v t h => Part2.bind (P := B x n) (readLine_B hg hf h) fun _ t h => h
    · exact Part2.bind (P := B x n) (readLine_B hg hf h) fun _ t h => h
  | _ =>
    refine Part2.bind ((quiet_A hc hs).no (hc.noexc (by rw [hm]; decide))) fun v t h => ?_
    rw [M.get_bind]
    refine Part2.bind (P := A x n) ?_ fun _ t h => Part2.bind (P := B x n) (readLine_B hg hf h) fun _ t h => h
    split
    · exact h
    · exact h

theorem tail_B (hg : x.src.Grown x.src) (hf : x.src.Fine) (rs : List Req) {s : Parser} (hs : A x n s) (he : s.eof = false) :
    Part2 (B x n) (B x n) (Quest.tail x rs s) := by
  unfold Quest.tail
  rw [M.get_bind]
  split
  · exact Part2.bind (m := handleErrorInvalidConversion x) (P := A x n) hs fun _ t h =>
      Part2.bind (P := B x n) (readLine_B hg hf h) fun _ t h => h
  · refine Part2.bind (m := clearError x.cfg) (P := A x n) hs fun _ t h => ?_
    rw [if_neg (by rw [he]; decide)]
    exact convertRow_B hg hf rs h

theorem getNext_B (hg : x.src.Grown x.src) (hf : x.src.Fine) (rs : List Req) {s : Parser} (hs : A x n s) (he : s.eof = false) :
    Part2 (B x n) (B x n) (getNext x rs s) := by
  show Part2 (B x n) (B x n) ((parseRowIf x >>= fun _ => onRd Reader.update >>= fun _ => Quest.tail x rs) s)
  refine Part2.bind (parseRowIf_step hg hf hs he) fun _ t h => ?_
  have hu : (Parser.world x).Ext (Parser.world x).P (Parser.world x).P (onRd Reader.update) (onRd Reader.update) :=
    ext_onRd (D := (Reader.world x).P) (E := (Reader.world x).P) (Reader.ext_quiet (Reader.quiet_update (Q := False)))
  have e : onRd Reader.update t = .ok () { t with rd := { t.rd with cur := t.rd.next, next := t.rd.cur } } := rfl
  have := ext_A (n := n) hu h.1
  rw [M.bind_of_ok e]
  rw [e] at this
  exact tail_B hg hf rs this h.2

theorem exec_B (hg : x.src.Grown x.src) (hf : x.src.Fine) {op : Op} (ho : op.Advances = true) {s : Parser} (hs : A x n s) (he : s.eof = false) :
    Part2 (B x n) (B x n) (op.exec x s) := by
  cases op with
  | getNext rs =>
    refine Part2.bind (getNext_B hg hf rs hs he) fun v t h => ?_
    rw [M.get_bind]; exact h
  | ignoreNext => exact Part2.bind (ignoreNext_B hg hf hs) fun _ t h => h
  | chain a as =>
    show Part2 (B x n) (B x n) ((M.get >>= fun s => if s.eof then pure (Ret.opts []) else tryChain x a as >>= fun l => pure (Ret.opts l)) s)
    rw [M.get_bind, if_neg (by rw [he]; decide)]
    refine Part2.bind (P := B x n) ?_ fun _ t h => h
    unfold tryChain tryNext
    refine Part2.bind (P := B x n) (Part2.bind (getNext_B hg hf a.reqs hs he) fun v t h => ?_) fun r t h => ?_
    · exact ext_B (D := none') (E := none') (m' := _) (World.Ext.same (Q := True) (w := Parser.world x)
        ⟨fun s b t ht => ((afterNext x a v).ok s b t ht).step, fun s b t ht => ((afterNext x a v).exc s b t ht).step, fun _ _ _ _ => trivial⟩) h
    · exact Part2.bind (ext_B (D := none') (E := none') (ext_quiet (quiet_orElses x as)) h) fun _ t h => h
  | header => cases ho
  | rawHeader => cases ho
  | fieldExists _ => cases ho
  | useFields _ => cases ho
where
  afterNext (x : Ctx) (a : Alt) (v : List Val) : Relates True Quiet (M.get >>= fun s => if s.valid x.cfg then tryInvoke x v a.fn >>= fun called =>
      M.get >>= fun s => pure (if s.valid x.cfg then some v else none, called) else pure (none, false)) :=
    qb qg fun s => Relates.ite (qb (quiet_tryInvoke x v a.fn) fun c => qb qg fun s => qp _) (qp _)

end Progress

/-- C79: `line()` never goes back, and every `get_next`, `ignore_next` and composite that is made before the end of the input was
found moves it on - whether the call delivers a row, reports an error or throws, in any setup, behind any calls. -/
theorem C79_line_advances {x : Ctx} (he : x.src.Exists) (hf : x.src.Fine) {s0 s t : Parser} (h0 : Parser.Created x s0) {ops : List Op}
    {os : List Obs} (hr : Parser.run x ops s0 = some (os, s)) {op : Op} {o : Obs} (h : Parser.step x op s = some (o, t)) :
    s.line ≤ o.line ∧ (op.Advances = true → s.eof = false → s.line < o.line) := by
  have he : ∀ n, x.src ≠ .buf none n := fun n e => by rw [e] at he; exact he rfl
  have hg := LastSel.grown_self he hf
  obtain ⟨i0, l0⟩ := LastSel.created_counts he hf h0
  obtain ⟨i1, l1, _⟩ := Parser.run_grow hg hf ops i0 hr
  have l2 : 0 < s.rd.lineNumber := Nat.lt_of_lt_of_le l0 l1.2
  have ho : o.line = t.line := by
    unfold Parser.step at h
    cases hm : op.exec x s with
    | ok r u => rw [hm] at h; cases h; rfl
    | exc e u => rw [hm] at h; cases h; rfl
    | ub => rw [hm] at h; cases h
    | nofuel => rw [hm] at h; cases h
  obtain ⟨_, m1, _⟩ := Parser.step_grow hg hf i1 h
  have m2 : s.rd.lineNumber ≤ t.rd.lineNumber := m1.2
  have hl : ∀ u : Parser, 0 < u.rd.lineNumber → u.line = u.rd.lineNumber - 1 := fun u hu => by
    unfold Parser.line; rw [if_pos hu]
  rw [ho, hl s l2, hl t (by omega)]
  refine ⟨by omega, fun ha hne => ?_⟩
  have := Progress.exec_B hg hf ha (n := s.rd.lineNumber) (s := s) ⟨i1, Nat.le_refl _⟩ hne
  have hb : s.rd.lineNumber < t.rd.lineNumber := by
    unfold Parser.step at h
    cases hm : op.exec x s with
    | ok r u => rw [hm] at h this; cases h; exact this.2
    | exc e u => rw [hm] at h this; cases h; exact this.2
    | ub => rw [hm] at h; cases h
    | nofuel => rw [hm] at h; cases h
  omega

/-- C79: so the calls that go on in the input are counted by `line()` as long as the end of the input was not found: there are at
most as many as lines behind the parser. -/
theorem C79_calls_counted {x : Ctx} (he : x.src.Exists) (hf : x.src.Fine) {s0 : Parser} (h0 : Parser.Created x s0) (pre : List Op) {os0 : List Obs} :
    ∀ {s : Parser}, Parser.run x pre s0 = some (os0, s) → ∀ (ops : List Op) {t : Parser} {os : List Obs}, Parser.run x ops s = some (os, t) →
      s.eof = false → (∀ o ∈ os, o.eof = false) → s.line + (ops.filter Op.Advances).length ≤ t.line := by
  intro s hp ops
  induction ops generalizing pre os0 s with
  | nil => intro t os h _ _; cases h; simp
  | cons op ops ih =>
    intro t os h hs ho
    unfold Parser.run at h
    cases h1 : Parser.step x op s with
    | none => rw [h1] at h; cases h
    | some p =>
      obtain ⟨o, u⟩ := p
      rw [h1] at h
      simp only at h
      cases h2 : Parser.run x ops u with
      | none => rw [h2] at h; cases h
      | some q =>
        obtain ⟨os', v⟩ := q
        rw [h2] at h
        cases h
        have hu : o.line = u.line ∧ o.eof = u.eof := by
          unfold Parser.step at h1
          cases hm : op.exec x s with
          | ok r w => rw [hm] at h1; cases h1; exact ⟨rfl, rfl⟩
          | exc e w => rw [hm] at h1; cases h1; exact ⟨rfl, rfl⟩
          | ub => rw [hm] at h1; cases h1
          | nofuel => rw [hm] at h1; cases h1
        obtain ⟨a1, a2⟩ := C79_line_advances he hf h0 hp h1
        have hrun : ∀ (l : List Op) (w : Parser) (o1 : List Obs), Parser.run x l w = some (o1, s) →
            Parser.run x (l ++ [op]) w = some (o1 ++ [o], u) := by
          intro l
          induction l with
          | nil => intro w o1 h; cases h; simp [Parser.run, h1]
          | cons q l ih =>
            intro w o1 h
            rw [List.cons_append]
            unfold Parser.run at h ⊢
            cases hq : Parser.step x q w with
            | none => rw [hq] at h; cases h
            | some r =>
              rw [hq] at h
              simp only at h ⊢
              cases hr : Parser.run x l r.2 with
              | none => rw [hr] at h; cases h
              | some z =>
                obtain ⟨o2, s2⟩ := z
                rw [hr] at h
                cases h
                rw [ih _ _ hr]
                rfl
        have := ih (pre ++ [op]) (hrun pre s0 os0 hp) h2 (by rw [← hu.2]; exact ho o (by simp)) fun o' h => ho o' (by simp [h])
        rw [← hu.1] at this
        by_cases ha : op.Advances = true
        · have := a2 ha hs
          rw [List.filter_cons_of_pos ha, List.length_cons]
          omega
        · rw [List.filter_cons_of_neg ha]
          omega

namespace Demo

/-- C79 at work, with multi-line rows, a bad row and a composite: `line()` and `eof()` behind each call; the hypotheses hold -/
theorem C79_lines :
    (ctx cm "a,\"1\n2\"\nb,x\nc,3\nd,4\n").src.Exists ∧ (ctx cm "a,\"1\n2\"\nb,x\nc,3\nd,4\n").src.Fine ∧
    Parser.Created (ctx cm "a,\"1\n2\"\nb,x\nc,3\nd,4\n") (start cm "a,\"1\n2\"\nb,x\nc,3\nd,4\n") ∧
    (runs cm "a,\"1\n2\"\nb,x\nc,3\nd,4\n" [.getNext [str, str], .getNext [str, num], .header, .ignoreNext, .getNext [str, num], .getNext [str]]).map
      (fun o => (o.valid, o.line, o.eof)) =
      [(true, 2, false), (false, 3, false), (false, 3, false), (false, 4, false), (true, 5, true), (false, 5, true)] := by
  refine ⟨by simp [ctx, Src.Exists], rfl, createdM cm_wf _, by decide +kernel⟩

end Demo
end Ssp
