import Verif.Proofs.ParseOne
/-!
# The outcome of one `get_next` of the row machine
-/
namespace Ssp
open Spec

/-- The outcome of `parse`: the columns of the row or the message with which it is rejected. -/
def PResR (x : Ctx) (r : Res MRd Unit) (res : Except Bytes (List Bytes)) (a1 : MRd) : Prop :=
  match res with
  | .ok cols => r = .ok () a1 ∧ a1.next.err.valid x.cfg.mode = true ∧
      a1.next.serr.valid x.cfg.mode = true ∧ a1.next.cols = some cols
  | .error m =>
    if x.cfg.mode = .throw then r = .exc m a1
    else r = .ok () a1 ∧
      ((a1.next.err.valid x.cfg.mode = false ∧ (x.cfg.mode = .string → a1.next.err.msg = m)) ∨
       (a1.next.err.valid x.cfg.mode = true ∧ a1.next.serr.valid x.cfg.mode = false ∧
        (x.cfg.mode = .string → a1.next.serr.msg = m)))

abbrev PRes (x : Ctx) (a : MRd) : Except Bytes (List Bytes) → MRd → Prop := PResR x (MRd.parse x a)

/-- What a row yields, from what its split yields. -/
def rowOf (rs : List Req) (sel : List Nat) (ncols : Nat) : Except Bytes (List Bytes) → Except Bytes (List Val)
  | .error m => .error m
  | .ok cols => rowResult rs sel ncols cols

theorem Ctx.at_ne {x : Ctx} {n : Nat} {m : Bytes} : x.at n m ≠ [] := by
  have : bs " " ≠ [] := by decide
  unfold Ctx.at
  simp [this]

/-- The outcome of `get_next`: `n` is the line number of the row. -/
def MOut (x : Ctx) (n : Nat) (r : Res Mach (Option (List Val))) (t' : Mach) : Except Bytes (List Val) → Prop
  | .ok vs => r = .ok (some vs) t' ∧ t'.err.valid x.cfg.mode = true
  | .error m => match x.cfg.mode with
    | .throw => r = .exc (x.at t'.line m) t'
    | .string => ∃ o, r = .ok o t' ∧ t'.err.msg = x.at n m
    | .bool => ∃ o, r = .ok o t' ∧ t'.err.flag = true

/-- the state after the row in `a2` was dealt with and the next one read -/
def Mach.readFrom (x : Ctx) (t : Mach) (e : ErrSt) (a2 : MRd) : Mach :=
  { t with err := e, rd := (a2.readR x).2, eof := !(a2.readR x).1 }

theorem Mach.readLine_eq (x : Ctx) (t : Mach) : Mach.readLine x t = .ok () (t.readFrom x t.err t.rd) := rfl

theorem convertCur_spec {x : Ctx} {rs : List Req} {a : MRd} {cs : List Bytes} (hv : a.cur.serr.valid x.cfg.mode = true)
    (hc : a.cur.cols = some cs) :
    MRd.convertCur x.cfg rs a = match rowResult rs a.sel a.ncols cs with
      | .ok vs => .ok (some vs) { a with cur := { a.cur with err := a.cur.err.clear x.cfg.mode } }
      | .error m =>
        if x.cfg.mode = .throw then .exc m { a with cur := { a.cur with err := a.cur.err.clear x.cfg.mode } }
        else .ok none { a with cur := { a.cur with err := (a.cur.err.clear x.cfg.mode).set x.cfg.mode m } } := by
  unfold MRd.convertCur
  simp only [hv, Bool.true_eq_false, if_false, hc]
  cases rowResult rs a.sel a.ncols cs <;> rfl

theorem onRd_of_ok {α : Type} {m : M MRd α} {t : Mach} {v : α} {a : MRd} (h : m t.rd = .ok v a) :
    Mach.onRd m t = .ok v { t with rd := a } := by simp [Mach.onRd, h]
theorem onRd_of_exc {α : Type} {m : M MRd α} {t : Mach} {e : Bytes} {a : MRd} (h : m t.rd = .exc e a) :
    Mach.onRd m t = .exc e { t with rd := a } := by simp [Mach.onRd, h]

theorem getNext_of_parse {x : Ctx} {rs : List Req} {t : Mach} {res : Except Bytes (List Bytes)} {a1 : MRd}
    (he : t.eof = false) (h : PRes x t.rd res a1) :
    ∃ e c' n', (x.cfg.mode ≠ .throw → c'.serr = a1.next.serr ∧ c'.cols = a1.next.cols ∧ n' = a1.cur) ∧
      MOut x a1.ln (Mach.getNext x rs t) (t.readFrom x e { a1 with cur := c', next := n' })
      (rowOf rs a1.sel a1.ncols res) := by
  cases res with
  | error m =>
    unfold PRes PResR at h
    simp only [rowOf, MOut] at h ⊢
    by_cases hth : x.cfg.mode = .throw
    · rw [if_pos hth] at h
      rw [hth]
      simp only
      refine ⟨t.err, a1.cur, a1.next, fun h => absurd rfl h, ?_⟩
      have hp : Mach.parseRow x t = .exc (x.at (t.readFrom x t.err a1).line m) (t.readFrom x t.err a1) := by
        unfold Mach.parseRow
        simp only [hth, Mach.tryCatch, onRd_of_exc h]
        rw [M.bind_of_ok (Mach.readLine_eq x _)]
        rfl
      unfold Mach.getNext
      have hp' : Mach.parseRowIf x t = .exc (x.at (t.readFrom x t.err a1).line m) (t.readFrom x t.err a1) := by
        unfold Mach.parseRowIf; simp only [he, Bool.false_eq_true, if_false]; exact hp
      rw [M.bind_of_exc hp']
    · rw [if_neg hth] at h
      obtain ⟨h, hv⟩ := h
      have hp : Mach.parseRowIf x t = .ok () { t with rd := a1 } := by
        unfold Mach.parseRowIf Mach.parseRow; simp only [he, Bool.false_eq_true, if_false]
        have := onRd_of_ok (t := t) h
        cases hm : x.cfg.mode <;> simp_all
      unfold Mach.getNext
      rw [M.bind_of_ok hp]
      simp only [Mach.onRd, MRd.update, M.modify_apply, M.bind_apply, M.get_apply]
      rcases hv with ⟨hv, hmsg⟩ | ⟨hv, hsv, hmsg⟩
      · simp only [hv, Bool.not_false, if_true, Mach.handleErrorInvalidConversion, M.modify_apply, M.bind_apply,
          Mach.readLine_eq, M.pure_apply]
        refine ⟨t.err.set x.cfg.mode (x.at a1.ln a1.next.err.msg), a1.next, a1.cur, fun _ => ⟨rfl, rfl, rfl⟩, ?_⟩
        cases hmode : x.cfg.mode with
        | throw => exact absurd hmode hth
        | string =>
          simp only
          refine ⟨_, rfl, ?_⟩
          simp only [Mach.readFrom, ErrSt.set, hmsg hmode]
        | bool =>
          simp only
          exact ⟨_, rfl, rfl⟩
      · simp only [hv, Bool.not_true, Bool.false_eq_true, if_false, Mach.clearError, M.modify_apply, M.bind_apply, he]
        refine ⟨(t.err.clear x.cfg.mode).set x.cfg.mode (x.at a1.ln a1.next.serr.msg),
          { a1.next with err := match x.cfg.mode with
            | .string => { a1.next.err.clear x.cfg.mode with msg := a1.next.serr.msg }
            | .throw => a1.next.err.clear x.cfg.mode
            | .bool => { a1.next.err.clear x.cfg.mode with flag := true } }, a1.cur, fun _ => ⟨rfl, rfl, rfl⟩, ?_⟩
        cases hmode : x.cfg.mode with
        | throw => exact absurd hmode hth
        | string =>
          rw [hmode] at hsv hv
          have hne : a1.next.serr.msg ≠ [] := by intro h; simp [ErrSt.valid, h] at hsv
          have hne' : a1.next.serr.msg.isEmpty = false := by simpa using hne
          simp only [Mach.convertRow, hmode, Mach.onRd, MRd.convertCur, if_true, M.bind_apply, M.get_apply,
            ErrSt.valid, hne', Bool.false_eq_true, if_false, Mach.handleErrorInvalidConversion, M.modify_apply,
            Mach.readLine_eq, M.pure_apply]
          refine ⟨_, rfl, ?_⟩
          simp only [Mach.readFrom, ErrSt.set]
          rw [hmsg hmode]
        | bool =>
          rw [hmode] at hsv hv
          simp only [Mach.convertRow, hmode, Mach.onRd, MRd.convertCur, hsv, if_true, M.bind_apply, M.get_apply]
          rw [if_neg (by simp [ErrSt.valid])]
          simp only [Mach.handleErrorInvalidConversion, M.modify_apply, Mach.readLine_eq, M.pure_apply, hmode]
          exact ⟨_, rfl, rfl⟩
  | ok cols =>
    obtain ⟨h, hv, hsv, hc⟩ := h
    have hp : Mach.parseRowIf x t = .ok () { t with rd := a1 } := by
      unfold Mach.parseRowIf Mach.parseRow; simp only [he, Bool.false_eq_true, if_false]
      have := onRd_of_ok (t := t) h
      cases hm : x.cfg.mode <;> simp_all [Mach.tryCatch]
    unfold Mach.getNext
    rw [M.bind_of_ok hp]
    simp only [Mach.onRd, MRd.update, M.modify_apply, M.bind_apply, M.get_apply]
    simp only [hv, Bool.not_true, Bool.false_eq_true, if_false, Mach.clearError, M.modify_apply, M.bind_apply, he, rowOf]
    have hcv := convertCur_spec (rs := rs) (x := x) (a := { a1 with cur := a1.next, next := a1.cur }) hsv hc
    simp only at hcv
    cases hr : rowResult rs a1.sel a1.ncols cols with
    | ok vs =>
      rw [hr] at hcv
      simp only at hcv
      refine ⟨t.err.clear x.cfg.mode, { a1.next with err := a1.next.err.clear x.cfg.mode }, a1.cur, fun _ => ⟨rfl, rfl, rfl⟩, ?_, ErrSt.valid_clear _ _⟩
      have hvc := ErrSt.valid_clear x.cfg.mode a1.next.err
      cases hmode : x.cfg.mode <;> rw [hmode] at hcv hvc <;>
        simp only [Mach.convertRow, hmode, Mach.onRd, hcv, M.bind_apply, M.get_apply, Mach.tryCatch, hvc, if_true,
          Mach.readLine_eq, M.pure_apply] <;> rfl
    | error m =>
      rw [hr] at hcv
      simp only at hcv
      have hne := Conv.rowResult_nonempty_error hr
      cases hmode : x.cfg.mode with
      | throw =>
        rw [hmode] at hcv
        simp only [if_true] at hcv
        refine ⟨t.err.clear .throw, { a1.next with err := a1.next.err.clear .throw }, a1.cur, fun _ => ⟨rfl, rfl, rfl⟩, ?_⟩
        simp only [MOut, hmode, Mach.convertRow, Mach.onRd, hcv, M.bind_apply, Mach.tryCatch, Mach.readLine_eq]
        rfl
      | string =>
        rw [hmode] at hcv
        simp only [reduceCtorEq, if_false] at hcv
        refine ⟨(t.err.clear .string).set .string (x.at a1.ln m),
          { a1.next with err := (a1.next.err.clear .string).set .string m }, a1.cur, fun _ => ⟨rfl, rfl, rfl⟩, ?_⟩
        have hvs := ErrSt.valid_set (m := .string) (by simp) hne (a1.next.err.clear .string)
        simp only [MOut, hmode, Mach.convertRow, Mach.onRd, hcv, M.bind_apply, M.get_apply, hvs, Bool.false_eq_true, if_false,
          Mach.handleErrorInvalidConversion, M.modify_apply, Mach.readLine_eq, M.pure_apply]
        exact ⟨_, rfl, rfl⟩
      | bool =>
        rw [hmode] at hcv
        simp only [reduceCtorEq, if_false] at hcv
        refine ⟨(t.err.clear .bool).set .bool (x.at a1.ln m),
          { a1.next with err := (a1.next.err.clear .bool).set .bool m }, a1.cur, fun _ => ⟨rfl, rfl, rfl⟩, ?_⟩
        have hvs := ErrSt.valid_set (m := .bool) (by simp) hne (a1.next.err.clear .bool)
        simp only [MOut, hmode, Mach.convertRow, Mach.onRd, hcv, M.bind_apply, M.get_apply, hvs, Bool.false_eq_true, if_false,
          Mach.handleErrorInvalidConversion, M.modify_apply, Mach.readLine_eq, M.pure_apply]
        exact ⟨_, rfl, rfl⟩

theorem parse_one_eq {x : Ctx} (hm : x.cfg.multiline = false) (a : MRd) :
    MRd.parse x a = MRd.splitText x.cfg x.delim (cutNul a.look) a := by
  unfold MRd.parse MRd.escapeLoopIf
  simp only [hm, Bool.false_eq_true, false_and, if_false, M.pure_bind', M.get_bind]
  rw [M.bind_apply]
  cases MRd.splitText x.cfg x.delim (cutNul a.look) a <;> rfl

/-- `parse` without multiline -/
theorem parse_one {x : Ctx} (hm : x.cfg.multiline = false) {a : MRd} (hv : a.next.err.valid x.cfg.mode = true) :
    ∃ n', n'.err = a.next.err ∧ (x.cfg.mode ≠ .throw → n'.serr.valid x.cfg.mode = false ∨ n'.cols ≠ none) ∧ PRes x a (if cutNul a.look = [] ∧ a.next.serr.valid x.cfg.mode = false then .error a.next.serr.msg
        else splitRes x.cfg x.delim (cutNul a.look)) { a with next := n' } := by
  unfold PRes PResR
  rw [parse_one_eq hm]
  generalize cutNul a.look = text
  unfold MRd.splitText splitRes
  by_cases ht : text = []
  · by_cases hs : a.next.serr.valid x.cfg.mode = false
    · refine ⟨{ a.next with cols := some [] }, rfl, fun _ => .inr (by simp), ?_⟩
      have hth : x.cfg.mode ≠ .throw := by intro h; rw [h] at hs; simp [ErrSt.valid] at hs
      simp only [ht, hs, and_self, if_true, hth, if_false, true_and]
      exact .inr ⟨hv, fun _ => trivial⟩
    · refine ⟨{ a.next with cols := some [] }, rfl, fun _ => .inr (by simp), ?_⟩
      have hs' : a.next.serr.valid x.cfg.mode = true := by simpa using hs
      rw [if_neg (fun h => hs h.2)]
      simp only [ht, if_true]
      exact ⟨trivial, hv, hs', trivial⟩
  · simp only [ht, false_and, if_false]
    cases he : endError x.cfg text.length (decodeRow x.cfg x.delim text).2 with
    | some m =>
      simp only
      by_cases hth : x.cfg.mode = .throw
      · exact ⟨{ a.next with cols := none }, rfl, fun h => absurd hth h, by simp [hth]⟩
      · refine ⟨{ a.next with serr := (a.next.serr.clear x.cfg.mode).set x.cfg.mode m, cols := none },
          rfl, fun _ => .inl (ErrSt.valid_set hth (endError_ne_nil he) _), ?_⟩
        simp only [hth, if_false, true_and]
        refine .inr ⟨hv, ErrSt.valid_set hth (endError_ne_nil he) _, fun h => by simp [h, ErrSt.set]⟩
    | none =>
      refine ⟨{ a.next with serr := a.next.serr.clear x.cfg.mode, cols := some (decodeRow x.cfg x.delim text).1 },
        rfl, fun _ => .inr (by simp), ?_⟩
      have ho : (decodeRow x.cfg x.delim text).2.isOpenQuote = false := by
        have := (endError_none_iff (n := 0)).mp he
        cases ho : (decodeRow x.cfg x.delim text).2 with
        | openQuote a => rw [ho, hm] at this; simp [End.stringError] at this
        | _ => rfl
      simp only [ho, Bool.false_eq_true, if_false]
      exact ⟨trivial, hv, ErrSt.valid_clear _ _, trivial⟩

end Ssp
