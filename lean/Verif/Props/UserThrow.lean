import Verif.Model.UserThrow
import Verif.Spec.Object
import Verif.Proofs.NoExc
import Verif.Props.ParserMultiline
/-!
# Exceptions thrown by code of the user (C60)
-/
namespace Ssp
open Spec

/-- `get_next<std::string, ...>()` with `n` strings -/
def strings (n : Nat) : List Req := List.replicate n (.ty .str)

/-! ## The converter -/

theorem columnPosition_cases (i : Nat) (s : Conv) : (∃ k, Conv.columnPosition i s = .ok k s) ∨ Conv.columnPosition i s = .ub := by
  unfold Conv.columnPosition
  by_cases h : s.mappings = []
  · rw [if_pos h]; exact .inl ⟨i, rfl⟩
  · rw [if_neg h]
    cases s.mappings[i]? with
    | none => exact .inr rfl
    | some p => exact .inl ⟨p, rfl⟩

theorem elemAt_cases (elems : List (Nat × Nat)) (i : Nat) (s : Conv) :
    (∃ k, Conv.elemAt elems i s = .ok k s) ∨ Conv.elemAt elems i s = .ub := by
  unfold Conv.elemAt
  cases elems[i]? with
  | none => exact .inr rfl
  | some p => exact .inl ⟨p, rfl⟩

theorem extractAt_cases (t : Ty) (p : Nat × Nat) (dst : Val) (s : Conv) :
    (∃ r, Conv.extractAt t p dst s = .ok r s) ∨ Conv.extractAt t p dst s = .ub := by
  unfold Conv.extractAt
  split
  · exact .inr rfl
  · cases extract s.spl.mem p.1 p.2 t dst with
    | none => exact .inr rfl
    | some r => exact .inl ⟨r, rfl⟩

/-- strings are converted without a change of the converter -/
theorem strings_convert (c : Cfg) (elems : List (Nat × Nat)) : ∀ (n i : Nat) (s : Conv), s.err.valid c.mode = true →
    Conv.extractMultiple c elems (strings n) i s = .ub ∨ ∃ vs, Conv.extractMultiple c elems (strings n) i s = .ok vs s := by
  intro n
  induction n with
  | zero => intro i s _; exact .inr ⟨[], rfl⟩
  | succ n ih =>
    intro i s hv
    show Conv.extractMultiple c elems (.ty .str :: strings n) i s = .ub ∨ _
    have hs : strings (n + 1) = .ty .str :: strings n := rfl
    rw [hs]
    unfold Conv.extractMultiple
    rcases columnPosition_cases i s with ⟨k, hk⟩ | hk
    · rw [M.bind_of_ok hk]
      rcases elemAt_cases elems k s with ⟨p, hp⟩ | hp
      · rw [M.bind_of_ok hp]
        have h1 : Conv.extractOne c (.ty .str) p i (Req.ty Ty.str).dflt s = .ub ∨
            ∃ v, Conv.extractOne c (.ty .str) p i (Req.ty Ty.str).dflt s = .ok v s := by
          unfold Conv.extractOne
          simp only [M.get_bind, hv, Bool.not_true, Bool.false_eq_true, if_false]
          rcases extractAt_cases .str p (Req.ty Ty.str).dflt s with ⟨r, hr⟩ | hr
          · rw [M.bind_of_ok hr]; exact .inr ⟨_, rfl⟩
          · rw [M.bind_apply, hr]; exact .inl rfl
        rcases h1 with h1 | ⟨v, h1⟩
        · rw [M.bind_apply, h1]; exact .inl rfl
        · rw [M.bind_of_ok h1]
          rcases ih (i + 1) s hv with h2 | ⟨vs, h2⟩
          · rw [M.bind_apply, h2]; exact .inl rfl
          · rw [M.bind_of_ok h2]; exact .inr ⟨_, rfl⟩
      · rw [M.bind_apply, hp]; exact .inl rfl
    · rw [M.bind_apply, hk]; exact .inl rfl

theorem handleError_cases {c : Cfg} {m : Bytes} (hm : m ≠ []) {s s' : Conv} (h : Conv.handleError c m s = .ok () s') :
    s'.err.valid c.mode = false := by
  unfold Conv.handleError at h
  cases hmode : c.mode with
  | throw => rw [hmode] at h; cases h
  | bool => rw [hmode] at h; cases h; rfl
  | string => rw [hmode] at h; cases h; simpa [ErrSt.valid, ErrSt.set] using hm

theorem msg_ne (text : Bytes) (pos : Nat) : Conv.msgInvalidConversion text pos ≠ [] := by
  intro h
  have : (bs "invalid conversion for parameter ").length = 0 := by
    have := congrArg List.length h
    unfold Conv.msgInvalidConversion at this
    rw [List.length_append] at this
    have h0 : ([] : Bytes).length = 0 := rfl
    omega
  revert this; decide

theorem msg_ne' (error text : Bytes) (pos : Nat) : Conv.msgValidationFailed error text pos ≠ [] := by
  intro h
  have : (bs " ").length = 0 := by
    have := congrArg List.length h
    unfold Conv.msgValidationFailed at this
    rw [List.length_append, List.length_append] at this
    have h0 : ([] : Bytes).length = 0 := rfl
    omega
  revert this; decide

/-- a column that is converted leaves the converter alone, or in an error -/
theorem extractOne_state {c : Cfg} {r : Req} {p : Nat × Nat} {pos : Nat} {dst v : Val} {s s' : Conv}
    (h : Conv.extractOne c r p pos dst s = .ok v s') : s' = s ∨ s'.err.valid c.mode = false := by
  have herr : ∀ {w : Val} {m : Bytes}, m ≠ [] → (Conv.handleError c m >>= fun _ => pure w) s = .ok v s' → s'.err.valid c.mode = false := by
    intro w m hm hh
    rw [M.bind_apply] at hh
    cases h1 : Conv.handleError c m s with
    | ok u s1 => rw [h1] at hh; cases hh; exact handleError_cases hm h1
    | exc _ _ => rw [h1] at hh; cases hh
    | ub => rw [h1] at hh; cases hh
    | nofuel => rw [h1] at hh; cases hh
  have htext : ∀ (g : Bytes → M Conv Val), (Conv.textOf p >>= g) s = g (textAt s.spl.mem p.1 p.2) s := fun g => rfl
  unfold Conv.extractOne at h
  simp only [M.get_bind] at h
  by_cases hv : s.err.valid c.mode = true
  · simp only [hv, Bool.not_true, Bool.false_eq_true, if_false] at h
    have hgen : ∀ (t : Ty) (g : Bool → Val → M Conv Val),
        (∀ ok w, g ok w s = .ok v s' → s' = s ∨ s'.err.valid c.mode = false) →
        (Conv.extractAt t p dst >>= fun x => g x.1 x.2) s = .ok v s' → s' = s ∨ s'.err.valid c.mode = false := by
      intro t g hg hh
      rcases extractAt_cases t p dst s with ⟨⟨ok, w⟩, hr⟩ | hr
      · rw [M.bind_of_ok hr] at hh; exact hg _ _ hh
      · rw [M.bind_apply, hr] at hh; cases hh
    have hty : ∀ t : Ty, (Conv.extractAt t p dst >>= fun x => if !x.1 then (Conv.textOf p >>= fun text =>
          Conv.handleError c (Conv.msgInvalidConversion text pos) >>= fun _ => pure x.2) else pure x.2) s = .ok v s' →
        s' = s ∨ s'.err.valid c.mode = false := by
      intro t
      refine hgen t (fun ok w => if !ok then (Conv.textOf p >>= fun text =>
          Conv.handleError c (Conv.msgInvalidConversion text pos) >>= fun _ => pure w) else pure w) fun ok w hh => ?_
      cases ok with
      | true => simp only [Bool.not_true, Bool.false_eq_true, if_false] at hh; cases hh; exact .inl rfl
      | false =>
        simp only [Bool.not_false, if_true] at hh
        rw [htext] at hh
        exact .inr (herr (msg_ne _ _) hh)
    cases r with
    | void => cases h; exact .inl rfl
    | ty t =>
      cases t with
      | str =>
        rcases extractAt_cases .str p dst s with ⟨r, hr⟩ | hr
        · simp only at h
          rw [M.bind_of_ok hr] at h; cases h; exact .inl rfl
        · simp only at h
          rw [M.bind_apply, hr] at h; cases h
      | _ => exact hty _ h
    | valid t q msg =>
      simp only at h
      refine hgen t (fun ok w => if !ok then (Conv.textOf p >>= fun text =>
          Conv.handleError c (Conv.msgInvalidConversion text pos) >>= fun _ => pure w)
        else if !q w then (Conv.textOf p >>= fun text =>
          Conv.handleError c (Conv.msgValidationFailed msg text pos) >>= fun _ => pure w) else pure w) (fun ok w hh => ?_) h
      cases ok with
      | true =>
        simp only [Bool.not_true, Bool.false_eq_true, if_false] at hh
        cases hq : q w with
        | true => simp only [hq, Bool.not_true, Bool.false_eq_true, if_false] at hh; cases hh; exact .inl rfl
        | false =>
          simp only [hq, Bool.not_false, if_true] at hh
          rw [htext] at hh
          exact .inr (herr (msg_ne' _ _ _) hh)
      | false =>
        simp only [Bool.not_false, if_true] at hh
        rw [htext] at hh
        exact .inr (herr (msg_ne _ _) hh)
  · simp only [hv] at h; cases h; exact .inl rfl

/-- an exception of the user leaves the converter as it was, and valid -/
theorem extractMultipleU_thrown {c : Cfg} {elems : List (Nat × Nat)} : ∀ {us : List UReq} {i : Nat} {s s' : Conv},
    Conv.extractMultipleU c elems us i s = .ok none s' → s' = s ∧ s.err.valid c.mode = true := by
  intro us
  induction us with
  | nil => intro i s s' h; cases h
  | cons u us ih =>
    intro i s s' h
    unfold Conv.extractMultipleU at h
    have key : ∀ r : Req, (Conv.columnPosition i >>= fun k => Conv.elemAt elems k >>= fun p =>
        Conv.extractOneU c u p i r.dflt >>= fun o => match o with
          | none => pure none
          | some v => Conv.extractMultipleU c elems us (i + 1) >>= fun o' => match o' with
            | none => pure none
            | some vs => pure (some (v :: vs))) s = .ok none s' → s' = s ∧ s.err.valid c.mode = true := by
      intro r h
      rcases columnPosition_cases i s with ⟨k, hk⟩ | hk
      · rw [M.bind_of_ok hk] at h
        rcases elemAt_cases elems k s with ⟨p, hp⟩ | hp
        · rw [M.bind_of_ok hp] at h
          rw [M.bind_apply] at h
          cases h1 : Conv.extractOneU c u p i r.dflt s with
          | ok o s1 =>
            rw [h1] at h
            have hone : (o = none → s1 = s ∧ s.err.valid c.mode = true) ∧ (s1 = s ∨ s1.err.valid c.mode = false) := by
              unfold Conv.extractOneU at h1
              simp only [M.get_bind] at h1
              by_cases hv : s.err.valid c.mode = true
              · simp only [hv, Bool.not_true, Bool.false_eq_true, if_false] at h1
                split at h1
                · cases h1
                · split at h1
                  · cases h1; exact ⟨fun _ => ⟨rfl, hv⟩, .inl rfl⟩
                  · rw [M.bind_apply] at h1
                    cases h2 : Conv.extractOne c u.req p i r.dflt s with
                    | ok v s2 =>
                      rw [h2] at h1; cases h1
                      exact ⟨fun h => (by cases h), extractOne_state h2⟩
                    | exc _ _ => rw [h2] at h1; cases h1
                    | ub => rw [h2] at h1; cases h1
                    | nofuel => rw [h2] at h1; cases h1
              · simp only [hv] at h1; cases h1; exact ⟨fun h => (by cases h), .inl rfl⟩
            cases o with
            | none => cases h; exact hone.1 rfl
            | some v =>
              simp only at h
              rw [M.bind_apply] at h
              cases h3 : Conv.extractMultipleU c elems us (i + 1) s1 with
              | ok o' s3 =>
                rw [h3] at h
                cases o' with
                | none =>
                  cases h
                  obtain ⟨rfl, hv1⟩ := ih h3
                  rcases hone.2 with e | e
                  · rw [e] at hv1 ⊢; exact ⟨rfl, hv1⟩
                  · rw [e] at hv1; cases hv1
                | some vs => cases h
              | exc _ _ => rw [h3] at h; cases h
              | ub => rw [h3] at h; cases h
              | nofuel => rw [h3] at h; cases h
          | exc _ _ => rw [h1] at h; cases h
          | ub => rw [h1] at h; cases h
          | nofuel => rw [h1] at h; cases h
        · rw [M.bind_apply, hp] at h; cases h
      · rw [M.bind_apply, hk] at h; cases h
    cases hr : u.req with
    | void => rw [hr] at h; exact ih h
    | ty t => rw [hr] at h; exact key _ h
    | valid t q m => rw [hr] at h; exact key _ h

/-- so the same row can be converted to strings -/
theorem convertCachedU_thrown {c : Cfg} {us : List UReq} {s s' : Conv} (h : Conv.convertCachedU c us s = .ok none s') :
    s'.err.valid c.mode = true ∧
    (Conv.convertCached c (strings us.length) s = .ub ∨ ∃ vs, Conv.convertCached c (strings us.length) s = .ok vs s') := by
  have hlen : (strings us.length).length = us.length := by simp [strings]
  unfold Conv.convertCachedU at h
  unfold Conv.convertCached
  simp only [M.get_bind] at h ⊢
  unfold Conv.convertImplU at h
  unfold Conv.convertImpl
  simp only [Conv.clearError, M.modify_bind, M.get_bind, hlen] at h ⊢
  have hfail : ∀ {m : Bytes} {w : List Val}, (Conv.handleError c m >>= fun _ => pure (some w)) { s with err := s.err.clear c.mode } ≠ .ok none s' := by
    intro m w hh
    rw [M.bind_apply] at hh
    cases h1 : Conv.handleError c m { s with err := s.err.clear c.mode } with
    | ok u s1 => rw [h1] at hh; cases hh
    | exc _ _ => rw [h1] at hh; cases hh
    | ub => rw [h1] at hh; cases hh
    | nofuel => rw [h1] at hh; cases hh
  have hdo : ∀ {elems : List (Nat × Nat)}, Conv.extractMultipleU c elems us 0 { s with err := s.err.clear c.mode } = .ok none s' →
      s'.err.valid c.mode = true ∧ (Conv.extractMultiple c elems (strings us.length) 0 { s with err := s.err.clear c.mode } = .ub ∨
        ∃ vs, Conv.extractMultiple c elems (strings us.length) 0 { s with err := s.err.clear c.mode } = .ok vs s') := by
    intro elems hh
    obtain ⟨rfl, hv⟩ := extractMultipleU_thrown hh
    exact ⟨hv, strings_convert c elems _ 0 _ hv⟩
  by_cases h1 : s.spl.err.valid c.mode = true
  · simp only [h1, Bool.not_true, Bool.false_eq_true, if_false] at h ⊢
    by_cases h2 : s.mappings = []
    · rw [if_pos h2] at h ⊢
      by_cases h3 : us.length ≠ s.spl.data.length
      · rw [if_pos h3] at h; exact absurd h hfail
      · rw [if_neg h3] at h ⊢; exact hdo h
    · rw [if_neg h2] at h ⊢
      by_cases h3 : us.length ≠ s.mappings.length
      · rw [if_pos h3] at h; exact absurd h hfail
      · rw [if_neg h3] at h ⊢
        by_cases h4 : s.spl.data.length ≠ s.ncols
        · rw [if_pos h4] at h; exact absurd h hfail
        · rw [if_neg h4] at h ⊢; exact hdo h
  · simp only [h1] at h
    cases h

/-! ## The parser -/

/-- reading the next line, in terms of `ignore_next` -/
theorem readLine_eq (x : Ctx) (s : Parser) : Parser.readLine x s =
    match Parser.ignoreNext x s with
    | .ok b s' => .ok () { s' with eof := !b }
    | .exc e s' => .exc e s'
    | .ub => .ub
    | .nofuel => .nofuel := by
  unfold Parser.readLine Parser.ignoreNext
  rw [M.bind_apply]
  cases Parser.onRd (Reader.readNext x) s <;> rfl

theorem ignoreNext_eof {x : Ctx} {s s' : Parser} {b : Bool} (h : Parser.ignoreNext x s = .ok b s') : s'.eof = s.eof := by
  unfold Parser.ignoreNext Parser.onRd at h
  cases hr : Reader.readNext x s.rd with
  | ok a r => rw [hr] at h; cases h; rfl
  | exc _ _ => rw [hr] at h; cases h
  | ub => rw [hr] at h; cases h
  | nofuel => rw [hr] at h; cases h

theorem onCur_eof {α : Type} {m : M Conv α} {a : α} {s s' : Parser} (h : Parser.onCur m s = .ok a s') : s'.eof = s.eof := by
  unfold Parser.onCur at h
  cases hr : m s.rd.cur.conv with
  | ok a r => rw [hr] at h; cases h; rfl
  | exc _ _ => rw [hr] at h; cases h
  | ub => rw [hr] at h; cases h
  | nofuel => rw [hr] at h; cases h

theorem onCur_err {α : Type} {m : M Conv α} {a : α} {s s' : Parser} (h : Parser.onCur m s = .ok a s') : s'.err = s.err := by
  unfold Parser.onCur at h
  cases hr : m s.rd.cur.conv with
  | ok a r => rw [hr] at h; cases h; rfl
  | exc _ _ => rw [hr] at h; cases h
  | ub => rw [hr] at h; cases h
  | nofuel => rw [hr] at h; cases h

theorem ignoreNext_err {x : Ctx} {s s' : Parser} {b : Bool} (h : Parser.ignoreNext x s = .ok b s') : s'.err = s.err := by
  unfold Parser.ignoreNext Parser.onRd at h
  cases hr : Reader.readNext x s.rd with
  | ok a r => rw [hr] at h; cases h; rfl
  | exc _ _ => rw [hr] at h; cases h
  | ub => rw [hr] at h; cases h
  | nofuel => rw [hr] at h; cases h

theorem tryCatch_ok {α : Type} {m : M Parser α} {f : Bytes → M Parser α} {s s1 : Parser} {a : α}
    (hf : ∀ e s2, f e s2 ≠ .ok a s1) (h : Parser.tryCatch m f s = .ok a s1) : m s = .ok a s1 := by
  unfold Parser.tryCatch at h
  cases hm : m s with
  | exc e s2 => rw [hm] at h; exact absurd h (hf e s2)
  | ok _ _ => rw [hm] at h; exact h
  | ub => rw [hm] at h; exact h
  | nofuel => rw [hm] at h; exact h

theorem convertRowU_thrown {x : Ctx} {us : List UReq} {s s1 : Parser} (h : Parser.convertRowU x us s = .ok none s1)
    (hn : Parser.convertRow x (strings us.length) s ≠ .ub) (hf : Parser.convertRow x (strings us.length) s ≠ .nofuel) :
    s1.eof = s.eof ∧ s1.err = s.err ∧ ∃ b s2 vs, Parser.ignoreNext x s1 = .ok b s2 ∧
      Parser.convertRow x (strings us.length) s = .ok vs { s2 with eof := !b } := by
  have hcur : Parser.onCur (Conv.convertCachedU x.cfg us) s = .ok none s1 := by
    unfold Parser.convertRowU at h
    have hgo : ∀ (g : List Val → M Parser (Option (List Val))), (∀ v s2, g v s2 ≠ .ok none s1) →
        (Parser.onCur (Conv.convertCachedU x.cfg us) >>= fun o => match o with | none => pure none | some v => g v) s = .ok none s1 →
        Parser.onCur (Conv.convertCachedU x.cfg us) s = .ok none s1 := by
      intro g hg hh
      rw [M.bind_apply] at hh
      cases h1 : Parser.onCur (Conv.convertCachedU x.cfg us) s with
      | ok o s2 =>
        rw [h1] at hh
        cases o with
        | none => cases hh; rfl
        | some v => exact absurd hh (hg v s2)
      | exc _ _ => rw [h1] at hh; cases hh
      | ub => rw [h1] at hh; cases hh
      | nofuel => rw [h1] at hh; cases hh
    have hread : ∀ (v : List Val) (s2 : Parser), (Parser.readLine x >>= fun _ => pure (some v)) s2 ≠ .ok none s1 := by
      intro v s2 hh
      rw [M.bind_apply] at hh
      cases h1 : Parser.readLine x s2 with
      | ok u s3 => rw [h1] at hh; cases hh
      | exc _ _ => rw [h1] at hh; cases hh
      | ub => rw [h1] at hh; cases hh
      | nofuel => rw [h1] at hh; cases hh
    have hplain : ∀ (v : List Val) (s2 : Parser), (M.get >>= fun s : Parser =>
        (if Conv.valid x.cfg s.rd.cur.conv then pure () else Parser.handleErrorInvalidConversion x) >>= fun _ =>
          Parser.readLine x >>= fun _ => pure (some v)) s2 ≠ .ok none s1 := by
      intro v s2 hh
      simp only [M.get_bind] at hh
      by_cases hv : Conv.valid x.cfg s2.rd.cur.conv = true
      · rw [if_pos hv] at hh; exact hread _ _ hh
      · rw [if_neg hv] at hh; exact hread _ _ hh
    cases hm : x.cfg.mode with
    | throw =>
      rw [hm] at h
      refine hgo _ hread (tryCatch_ok (fun e s2 hh => ?_) h)
      rw [M.bind_apply] at hh
      cases h2 : Parser.readLine x s2 with
      | ok u s3 => rw [h2] at hh; cases hh
      | exc _ _ => rw [h2] at hh; cases hh
      | ub => rw [h2] at hh; cases hh
      | nofuel => rw [h2] at hh; cases hh
    | bool => rw [hm] at h; exact hgo _ hplain h
    | string => rw [hm] at h; exact hgo _ hplain h
  have heof := onCur_eof hcur
  have herr := onCur_err hcur
  obtain ⟨cv, hcv, hs1⟩ : ∃ cv, Conv.convertCachedU x.cfg us s.rd.cur.conv = .ok none cv ∧
      s1 = { s with rd := { s.rd with cur := { s.rd.cur with conv := cv } } } := by
    unfold Parser.onCur at hcur
    cases hr : Conv.convertCachedU x.cfg us s.rd.cur.conv with
    | ok a r => rw [hr] at hcur; cases hcur; exact ⟨r, rfl, rfl⟩
    | exc _ _ => rw [hr] at hcur; cases hcur
    | ub => rw [hr] at hcur; cases hcur
    | nofuel => rw [hr] at hcur; cases hcur
  obtain ⟨hval, hstr⟩ := convertCachedU_thrown hcv
  have hub : ∀ (g : List Val → M Parser (List Val)), Parser.onCur (Conv.convertCached x.cfg (strings us.length)) s = .ub →
      (Parser.onCur (Conv.convertCached x.cfg (strings us.length)) >>= g) s = .ub := by
    intro g hh; rw [M.bind_apply, hh]
  have hconv : Parser.onCur (Conv.convertCached x.cfg (strings us.length)) s = .ub ∨
      ∃ vs, Parser.onCur (Conv.convertCached x.cfg (strings us.length)) s = .ok vs s1 := by
    rcases hstr with hstr | ⟨vs, hstr⟩
    · left; unfold Parser.onCur; rw [hstr]
    · right; refine ⟨vs, ?_⟩; unfold Parser.onCur; rw [hstr, hs1]
  have hvalid : Conv.valid x.cfg s1.rd.cur.conv = true := by rw [hs1]; exact hval
  have hend : ∀ vs, Parser.convertRow x (strings us.length) s = (Parser.readLine x >>= fun _ => pure vs) s1 →
      ∃ b s2 vs, Parser.ignoreNext x s1 = .ok b s2 ∧
        Parser.convertRow x (strings us.length) s = .ok vs { s2 with eof := !b } := by
    intro vs hh
    rw [M.bind_apply, readLine_eq] at hh
    cases h1 : Parser.ignoreNext x s1 with
    | ok b s2 => rw [h1] at hh; exact ⟨b, s2, vs, rfl, hh⟩
    | exc e s2 => exact absurd h1 ((Parser.noexc_ignoreNext x).no _ _ _)
    | ub => rw [h1] at hh; exact absurd hh hn
    | nofuel => rw [h1] at hh; exact absurd hh hf
  refine ⟨heof, herr, ?_⟩
  unfold Parser.convertRow at hn hf hend ⊢
  cases hm : x.cfg.mode with
  | throw =>
    rw [hm] at hn hf hend
    simp only [Parser.tryCatch] at hn hf hend ⊢
    rcases hconv with hc | ⟨vs, hc⟩
    · rw [hub _ hc] at hn; exact absurd rfl hn
    · rw [M.bind_of_ok hc] at hn hf hend ⊢
      refine hend vs ?_
      rw [M.bind_apply, readLine_eq]
      cases h1 : Parser.ignoreNext x s1 with
      | ok b s2 => rfl
      | exc e s2 => exact absurd h1 ((Parser.noexc_ignoreNext x).no _ _ _)
      | ub => rfl
      | nofuel => rfl
  | _ =>
    rw [hm] at hn hf hend
    simp only at hn hf hend ⊢
    rcases hconv with hc | ⟨vs, hc⟩
    · rw [hub _ hc] at hn; exact absurd rfl hn
    · rw [M.bind_of_ok hc] at hn hf hend ⊢
      refine hend vs ?_
      simp only [M.get_bind, hvalid, if_true]
      rfl

theorem bind_ne {α β : Type} {m : M Parser α} {f : α → M Parser β} {s s1 : Parser} {b : β} (h : ∀ a s2, f a s2 ≠ .ok b s1) :
    (m >>= f) s ≠ .ok b s1 := by
  intro hh
  rw [M.bind_apply] at hh
  cases h1 : m s with
  | ok a s3 => rw [h1] at hh; exact h a s3 hh
  | exc _ _ => rw [h1] at hh; cases hh
  | ub => rw [h1] at hh; cases hh
  | nofuel => rw [h1] at hh; cases hh

theorem bind_some_ne {α β : Type} {m : M Parser α} {f : α → M Parser (Option β)} {v : β} {s s1 : Parser}
    (h : ∀ a, f a = pure (some v)) : (m >>= f) s ≠ .ok none s1 :=
  bind_ne fun a s2 hh => by rw [h a] at hh; cases hh

theorem exec_getNext (x : Ctx) (rs : List Req) (s : Parser) : Op.exec x (.getNext rs) s =
    (Parser.getNext x rs >>= fun v => M.get >>= fun s => pure (Ret.row (if s.valid x.cfg then some v else none))) s := rfl

/-- C60, what is true of it: at any time of a covered life, if an exception of the user's conversion or validator leaves
`get_next`, then `ignore_next()` puts things right: the parser is then exactly as it would be if the same row had been read
as strings, without any exception - except that `eof()` is not updated if this row was the last (`ignore_next()` returned
false).  Missing from the full statement: without this `ignore_next()` the next row is not the one that follows, see
`C60_row_twice` and `C60_first_row`. -/
theorem C60_recover_partial {x : Ctx} {s s1 : Parser} {us : List UReq} (hx : x.Ok) (h : Parser.ReachT x s)
    (ht : Parser.getNextU x us s = .ok none s1) :
    ∃ b s2 vs, Parser.ignoreNext x s1 = .ok b s2 ∧ s2.valid x.cfg = true ∧
      Parser.getNext x (strings us.length) s = .ok vs { s2 with eof := !b } ∧
      (b = true → Parser.getNext x (strings us.length) s = .ok vs s2 ∧ Parser.ReachT x s2) := by
  obtain ⟨os, s', hrun, _⟩ := C54_calls_multiline_partial hx h [.getNext (strings us.length)] ⟨Op.Tame.getNext, fun _ _ _ => trivial⟩
  have hdef : Parser.getNext x (strings us.length) s ≠ .ub ∧ Parser.getNext x (strings us.length) s ≠ .nofuel := by
    have hop : ∀ o : Res Parser (List Val), (o = .ub ∨ o = .nofuel) → Parser.getNext x (strings us.length) s = o → False := by
      intro o ho hh
      have he : Op.exec x (.getNext (strings us.length)) s = .ub ∨ Op.exec x (.getNext (strings us.length)) s = .nofuel := by
        rw [exec_getNext, M.bind_apply, hh]
        rcases ho with ho | ho <;> subst ho <;> simp
      rcases he with he | he <;> (simp only [Parser.run, Parser.step, he] at hrun; cases hrun)
    exact ⟨hop _ (.inl rfl), hop _ (.inr rfl)⟩
  have key : ∃ b s2 vs, Parser.ignoreNext x s1 = .ok b s2 ∧ s2.valid x.cfg = true ∧ s2.eof = false ∧
      Parser.getNext x (strings us.length) s = .ok vs { s2 with eof := !b } := by
    unfold Parser.getNextU at ht
    unfold Parser.getNext at hdef ⊢
    rw [M.bind_apply] at ht hdef ⊢
    cases h1 : Parser.parseRowIf x s with
    | ok u s3 =>
      rw [h1] at ht hdef
      simp only at ht hdef ⊢
      have hup : Parser.onRd Reader.update s3 = .ok () { s3 with rd := { s3.rd with cur := s3.rd.next, next := s3.rd.cur } } := rfl
      rw [M.bind_of_ok hup] at ht hdef ⊢
      generalize { s3 with rd := { s3.rd with cur := s3.rd.next, next := s3.rd.cur } } = s4 at ht hdef ⊢
      simp only [M.get_bind] at ht hdef ⊢
      by_cases hv : Conv.valid x.cfg s4.rd.cur.conv = true
      · simp only [hv, Bool.not_true, Bool.false_eq_true, if_false] at ht hdef ⊢
        simp only [Parser.clearError, M.modify_bind] at ht hdef ⊢
        by_cases he : s4.eof = true
        · rw [if_pos he] at ht
          exact absurd ht (bind_some_ne (fun _ => rfl))
        · rw [if_neg he] at ht hdef ⊢
          obtain ⟨g1, g2, b, s2, vs, g3, g4⟩ := convertRowU_thrown ht hdef.1 hdef.2
          refine ⟨b, s2, vs, g3, ?_, ?_, g4⟩
          · show s2.err.valid _ = true
            rw [ignoreNext_err g3, g2]
            exact ErrSt.valid_clear _ _
          · rw [ignoreNext_eof g3, g1]; simpa using he
      · simp only [hv, Bool.not_false, if_true] at ht
        exact absurd ht (bind_ne (fun _ _ => bind_some_ne (fun _ => rfl)))
    | exc e s3 => rw [h1] at ht; cases ht
    | ub => rw [h1] at ht; cases ht
    | nofuel => rw [h1] at ht; cases ht
  obtain ⟨b, s2, vs, g1, g2, g3, g4⟩ := key
  refine ⟨b, s2, vs, g1, g2, g4, fun hb => ?_⟩
  have hs2 : { s2 with eof := !b } = s2 := by rw [hb]; cases s2; cases g3; rfl
  rw [hs2] at g4
  refine ⟨g4, h.step (op := .getNext (strings us.length)) Op.Tame.getNext
    (o := Parser.observe x (.row (if s2.valid x.cfg then some vs else none)) s2) ?_⟩
  have he : Op.exec x (.getNext (strings us.length)) s = .ok (.row (if s2.valid x.cfg then some vs else none)) s2 := by
    rw [exec_getNext, M.bind_of_ok g4]; rfl
  simp only [Parser.step, he]

/-! ## Calls in which nothing is thrown -/

/-- `mu` is the call `m`, unless the user's code throws -/
def Unless {σ α : Type} (mu : M σ (Option α)) (m : M σ α) : Prop :=
  ∀ s, (∃ s', mu s = .ok none s') ∨ mu s = (m s).map some

namespace Unless
variable {σ α β : Type} {mu : M σ (Option α)} {m : M σ α}

theorem some_pure (a : α) : Unless (pure (some a) : M σ (Option α)) (pure a) := fun _ => .inr rfl

theorem bind_same {p : M σ β} {fu : β → M σ (Option α)} {f : β → M σ α} (h : ∀ b, Unless (fu b) (f b)) :
    Unless (p >>= fu) (p >>= f) := by
  intro s
  rw [M.bind_apply, M.bind_apply]
  cases p s with
  | ok b s1 => exact h b s1
  | exc e s1 => exact .inr rfl
  | ub => exact .inr rfl
  | nofuel => exact .inr rfl

theorem bind_opt {fu : Option α → M σ (Option β)} {f : α → M σ β} (hm : Unless mu m) (hn : fu none = pure none)
    (hs : ∀ a, Unless (fu (some a)) (f a)) : Unless (mu >>= fu) (m >>= f) := by
  intro s
  rw [M.bind_apply, M.bind_apply]
  rcases hm s with ⟨s', h⟩ | h
  · rw [h]; left; refine ⟨s', ?_⟩; simp only [hn]; rfl
  · rw [h]
    cases m s with
    | ok a s1 => exact hs a s1
    | exc e s1 => exact .inr rfl
    | ub => exact .inr rfl
    | nofuel => exact .inr rfl

theorem map_some (p : M σ α) : Unless (p >>= fun v => pure (some v)) p := by
  intro s
  right
  rw [M.bind_apply]
  cases p s <;> rfl
end Unless

theorem extractOne_ub {c : Cfg} {r : Req} {p : Nat × Nat} {pos : Nat} {dst : Val} {s : Conv} (hr : r ≠ .void)
    (hv : s.err.valid c.mode = true) (h : s.spl.gen ≠ s.spl.lineGen ∨ p.2 < p.1 ∨ s.spl.mem.length < p.2) :
    Conv.extractOne c r p pos dst s = .ub := by
  have he : ∀ t, Conv.extractAt t p dst s = .ub := fun t => by unfold Conv.extractAt; rw [if_pos h]
  unfold Conv.extractOne
  simp only [M.get_bind, hv, Bool.not_true, Bool.false_eq_true, if_false]
  cases r with
  | void => exact absurd rfl hr
  | ty t =>
    cases t <;> (simp only; rw [M.bind_apply, he])
  | valid t q m => simp only; rw [M.bind_apply, he]

theorem unless_extractOne (c : Cfg) (u : UReq) (p : Nat × Nat) (pos : Nat) (dst : Val) (hr : u.req ≠ .void) :
    Unless (Conv.extractOneU c u p pos dst) (Conv.extractOne c u.req p pos dst) := by
  intro s
  unfold Conv.extractOneU
  simp only [M.get_bind]
  by_cases hv : s.err.valid c.mode = true
  · simp only [hv, Bool.not_true, Bool.false_eq_true, if_false]
    by_cases hb : s.spl.gen ≠ s.spl.lineGen ∨ p.2 < p.1 ∨ s.spl.mem.length < p.2
    · rw [if_pos hb, extractOne_ub hr hv hb]; exact .inr rfl
    · rw [if_neg hb]
      by_cases ht : u.throws (textAt s.spl.mem p.1 p.2) = true
      · rw [if_pos ht]; exact .inl ⟨s, rfl⟩
      · rw [if_neg ht]; exact Unless.map_some _ s
  · right
    simp only [hv, Bool.not_false, if_true]
    unfold Conv.extractOne
    simp only [M.get_bind, hv, Bool.not_false, if_true]
    rfl

theorem unless_extractMultiple (c : Cfg) (elems : List (Nat × Nat)) : ∀ (us : List UReq) (i : Nat),
    Unless (Conv.extractMultipleU c elems us i) (Conv.extractMultiple c elems (us.map (·.req)) i) := by
  intro us
  induction us with
  | nil => intro i; exact Unless.some_pure _
  | cons u us ih =>
    intro i
    have hgo : ∀ r, u.req = r → r ≠ .void →
        Unless (Conv.columnPosition i >>= fun k => Conv.elemAt elems k >>= fun p => Conv.extractOneU c u p i r.dflt >>= fun o =>
          match o with
          | none => pure none
          | some v => Conv.extractMultipleU c elems us (i + 1) >>= fun o =>
            match o with
            | none => pure none
            | some vs => pure (some (v :: vs)))
        (Conv.columnPosition i >>= fun k => Conv.elemAt elems k >>= fun p => Conv.extractOne c r p i r.dflt >>= fun v =>
          Conv.extractMultiple c elems (us.map (·.req)) (i + 1) >>= fun vs => pure (v :: vs)) := by
      intro r hr hne
      refine Unless.bind_same fun k => Unless.bind_same fun p => ?_
      have h1 := unless_extractOne c u p i r.dflt (by rw [hr]; exact hne)
      rw [hr] at h1
      refine Unless.bind_opt h1 rfl fun v => ?_
      exact Unless.bind_opt (ih (i + 1)) rfl fun vs => Unless.some_pure _
    unfold Conv.extractMultipleU
    rw [List.map_cons]
    cases hr : u.req with
    | void => unfold Conv.extractMultiple; exact ih (i + 1)
    | ty t => unfold Conv.extractMultiple; exact hgo _ hr (by simp)
    | valid t q m => unfold Conv.extractMultiple; exact hgo _ hr (by simp)

theorem unless_convertImpl (c : Cfg) (us : List UReq) (elems : List (Nat × Nat)) :
    Unless (Conv.convertImplU c us elems) (Conv.convertImpl c (us.map (·.req)) elems) := by
  unfold Conv.convertImplU Conv.convertImpl
  rw [List.length_map]
  refine Unless.bind_same fun _ => Unless.bind_same fun s => ?_
  have hd : ∀ m : M Conv Unit, Unless (m >>= fun _ => pure (some (Conv.defaults (us.map (·.req)))))
      (m >>= fun _ => pure (Conv.defaults (us.map (·.req)))) := fun m => Unless.bind_same fun _ => Unless.some_pure _
  by_cases h1 : (!s.spl.err.valid c.mode) = true
  · rw [if_pos h1, if_pos h1]; exact hd _
  rw [if_neg h1, if_neg h1]
  by_cases h2 : s.mappings = []
  · rw [if_pos h2, if_pos h2]
    by_cases h3 : us.length ≠ elems.length
    · rw [if_pos h3, if_pos h3]; exact hd _
    · rw [if_neg h3, if_neg h3]; exact unless_extractMultiple c elems us 0
  rw [if_neg h2, if_neg h2]
  by_cases h3 : us.length ≠ s.mappings.length
  · rw [if_pos h3, if_pos h3]; exact hd _
  rw [if_neg h3, if_neg h3]
  by_cases h4 : elems.length ≠ s.ncols
  · rw [if_pos h4, if_pos h4]; exact hd _
  rw [if_neg h4, if_neg h4]
  exact unless_extractMultiple c elems us 0

theorem unless_onCur (c : Cfg) (us : List UReq) :
    Unless (Parser.onCur (Conv.convertCachedU c us)) (Parser.onCur (Conv.convertCached c (us.map (·.req)))) := by
  intro s
  unfold Parser.onCur Conv.convertCachedU Conv.convertCached
  simp only [M.get_bind]
  rcases unless_convertImpl c us s.rd.cur.conv.spl.data s.rd.cur.conv with ⟨s', h⟩ | h
  · rw [h]; exact .inl ⟨_, rfl⟩
  · rw [h]
    right
    cases Conv.convertImpl c (us.map (·.req)) s.rd.cur.conv.spl.data s.rd.cur.conv <;> rfl

theorem Unless.tryCatch {mu : M Parser (Option α)} {m : M Parser α} {hu : Bytes → M Parser (Option α)} {h : Bytes → M Parser α}
    (h1 : Unless mu m) (h2 : ∀ e, Unless (hu e) (h e)) : Unless (Parser.tryCatch mu hu) (Parser.tryCatch m h) := by
  intro s
  unfold Parser.tryCatch
  rcases h1 s with ⟨s', g⟩ | g
  · rw [g]; exact .inl ⟨s', rfl⟩
  · rw [g]
    cases m s with
    | ok a s1 => exact .inr rfl
    | exc e s1 => exact h2 e s1
    | ub => exact .inr rfl
    | nofuel => exact .inr rfl

theorem unless_convertRow (x : Ctx) (us : List UReq) :
    Unless (Parser.convertRowU x us) (Parser.convertRow x (us.map (·.req))) := by
  have hdec : ∀ e, Unless (Parser.decorateRethrow (α := Option (List Val)) x e) (Parser.decorateRethrow x e) := by
    intro e s
    exact .inr rfl
  unfold Parser.convertRowU Parser.convertRow
  cases hm : x.cfg.mode with
  | throw =>
    refine Unless.tryCatch (Unless.bind_opt (unless_onCur _ us) rfl fun v => ?_) fun e => ?_
    · exact Unless.bind_same fun _ => Unless.some_pure _
    · exact Unless.bind_same fun _ => hdec e
  | _ =>
    refine Unless.bind_opt (unless_onCur _ us) rfl fun v => ?_
    exact Unless.bind_same fun _ => Unless.bind_same fun _ => Unless.bind_same fun _ => Unless.some_pure _

/-- C60: a `get_next` that no exception of the user's code leaves is the `get_next` of the other theorems, whatever the
parser. -/
theorem C60_no_throw (x : Ctx) (us : List UReq) (s : Parser) (h : ∀ s', Parser.getNextU x us s ≠ .ok none s') :
    Parser.getNextU x us s = (Parser.getNext x (us.map (·.req)) s).map some := by
  have key : Unless (Parser.getNextU x us) (Parser.getNext x (us.map (·.req))) := by
    unfold Parser.getNextU Parser.getNext
    refine Unless.bind_same fun _ => Unless.bind_same fun _ => Unless.bind_same fun s => ?_
    by_cases h1 : (!Conv.valid x.cfg s.rd.cur.conv) = true
    · rw [if_pos h1, if_pos h1]
      exact Unless.bind_same fun _ => Unless.bind_same fun _ => Unless.some_pure _
    rw [if_neg h1, if_neg h1]
    refine Unless.bind_same fun _ => ?_
    by_cases h2 : s.eof = true
    · rw [if_pos h2, if_pos h2]
      exact Unless.bind_same fun _ => Unless.some_pure _
    · rw [if_neg h2, if_neg h2]
      exact unless_convertRow x us
  rcases key s with ⟨s', h'⟩ | h'
  · exact absurd h' (h s')
  · exact h'

/-! ## Rows -/

theorem extractMultipleU_who {c : Cfg} {elems : List (Nat × Nat)} : ∀ {us : List UReq} {i : Nat} {s s' : Conv},
    Conv.extractMultipleU c elems us i s = .ok none s' → ∃ u ∈ us, ∃ t, u.throws t = true := by
  intro us
  induction us with
  | nil => intro i s s' h; cases h
  | cons u us ih =>
    intro i s s' h
    have hone : ∀ {p dst s s'}, Conv.extractOneU c u p i dst s = .ok none s' → ∃ t, u.throws t = true := by
      intro p dst s s' hh
      unfold Conv.extractOneU at hh
      simp only [M.get_bind] at hh
      by_cases hv : (!s.err.valid c.mode) = true
      · rw [if_pos hv] at hh; cases hh
      rw [if_neg hv] at hh
      by_cases hb : s.spl.gen ≠ s.spl.lineGen ∨ p.2 < p.1 ∨ s.spl.mem.length < p.2
      · rw [if_pos hb] at hh; cases hh
      rw [if_neg hb] at hh
      by_cases ht : u.throws (textAt s.spl.mem p.1 p.2) = true
      · exact ⟨_, ht⟩
      · rw [if_neg ht, M.bind_apply] at hh
        cases h1 : Conv.extractOne c u.req p i dst s with
        | ok a s1 => rw [h1] at hh; cases hh
        | exc _ _ => rw [h1] at hh; cases hh
        | ub => rw [h1] at hh; cases hh
        | nofuel => rw [h1] at hh; cases hh
    have hgo : ∀ r : Req, (Conv.columnPosition i >>= fun k => Conv.elemAt elems k >>= fun p => Conv.extractOneU c u p i r.dflt >>= fun o =>
          match o with
          | none => pure none
          | some v => Conv.extractMultipleU c elems us (i + 1) >>= fun o =>
            match o with
            | none => pure none
            | some vs => pure (some (v :: vs))) s = .ok none s' → ∃ u' ∈ u :: us, ∃ t, u'.throws t = true := by
      intro r hh
      rcases columnPosition_cases i s with ⟨k, hk⟩ | hk
      · rw [M.bind_of_ok hk] at hh
        rcases elemAt_cases elems k s with ⟨p, hp⟩ | hp
        · rw [M.bind_of_ok hp, M.bind_apply] at hh
          cases h1 : Conv.extractOneU c u p i r.dflt s with
          | ok o s1 =>
            rw [h1] at hh
            cases o with
            | none => exact ⟨u, List.mem_cons_self, hone h1⟩
            | some v =>
              simp only at hh
              rw [M.bind_apply] at hh
              cases h2 : Conv.extractMultipleU c elems us (i + 1) s1 with
              | ok o s2 =>
                rw [h2] at hh
                cases o with
                | none =>
                  obtain ⟨u', hu, ht⟩ := ih h2
                  exact ⟨u', List.mem_cons_of_mem _ hu, ht⟩
                | some vs => cases hh
              | exc _ _ => rw [h2] at hh; cases hh
              | ub => rw [h2] at hh; cases hh
              | nofuel => rw [h2] at hh; cases hh
          | exc _ _ => rw [h1] at hh; cases hh
          | ub => rw [h1] at hh; cases hh
          | nofuel => rw [h1] at hh; cases hh
        · rw [M.bind_apply, hp] at hh; cases hh
      · rw [M.bind_apply, hk] at hh; cases hh
    unfold Conv.extractMultipleU at h
    cases hr : u.req with
    | void =>
      rw [hr] at h
      obtain ⟨u', hu, ht⟩ := ih h
      exact ⟨u', List.mem_cons_of_mem _ hu, ht⟩
    | ty t => rw [hr] at h; exact hgo _ h
    | valid t q m => rw [hr] at h; exact hgo _ h

/-- the user's code does not throw -/
def Never {σ α : Type} (mu : M σ (Option α)) : Prop := ∀ s s', mu s ≠ .ok none s'

namespace Never
variable {σ α β : Type}

theorem some_pure (a : α) : Never (pure (some a) : M σ (Option α)) := fun _ _ h => by cases h

theorem bind_same {p : M σ β} {fu : β → M σ (Option α)} (h : ∀ b, Never (fu b)) : Never (p >>= fu) := by
  intro s s' hh
  rw [M.bind_apply] at hh
  cases h1 : p s with
  | ok b s1 => rw [h1] at hh; exact h b s1 s' hh
  | exc _ _ => rw [h1] at hh; cases hh
  | ub => rw [h1] at hh; cases hh
  | nofuel => rw [h1] at hh; cases hh

theorem bind_opt {mu : M σ (Option α)} {fu : Option α → M σ (Option β)} (hm : Never mu) (hs : ∀ a, Never (fu (some a))) :
    Never (mu >>= fu) := by
  intro s s' hh
  rw [M.bind_apply] at hh
  cases h1 : mu s with
  | ok o s1 =>
    rw [h1] at hh
    cases o with
    | none => exact hm _ _ h1
    | some a => exact hs a s1 s' hh
  | exc _ _ => rw [h1] at hh; cases hh
  | ub => rw [h1] at hh; cases hh
  | nofuel => rw [h1] at hh; cases hh

theorem tryCatch {mu : M Parser (Option α)} {h : Bytes → M Parser (Option α)} (h1 : Never mu) (h2 : ∀ e, Never (h e)) :
    Never (Parser.tryCatch mu h) := by
  intro s s' hh
  unfold Parser.tryCatch at hh
  cases g : mu s with
  | ok o s1 => rw [g] at hh; cases hh; exact h1 _ _ g
  | exc e s1 => rw [g] at hh; exact h2 e _ _ hh
  | ub => rw [g] at hh; cases hh
  | nofuel => rw [g] at hh; cases hh
end Never

theorem never_convertImpl {c : Cfg} {us : List UReq} {elems : List (Nat × Nat)} (h : ∀ u ∈ us, ∀ t, u.throws t = false) :
    Never (Conv.convertImplU c us elems) := by
  have hx : Never (Conv.extractMultipleU c elems us 0) := by
    intro s s' hh
    obtain ⟨u, hu, t, ht⟩ := extractMultipleU_who hh
    rw [h u hu t] at ht
    cases ht
  unfold Conv.convertImplU
  refine Never.bind_same fun _ => Never.bind_same fun s => ?_
  have hd : ∀ m : M Conv Unit, Never (m >>= fun _ => pure (some (Conv.defaults (us.map (·.req))))) :=
    fun m => Never.bind_same fun _ => Never.some_pure _
  by_cases h1 : (!s.spl.err.valid c.mode) = true
  · rw [if_pos h1]; exact hd _
  rw [if_neg h1]
  by_cases h2 : s.mappings = []
  · rw [if_pos h2]
    by_cases h3 : us.length ≠ elems.length
    · rw [if_pos h3]; exact hd _
    · rw [if_neg h3]; exact hx
  rw [if_neg h2]
  by_cases h3 : us.length ≠ s.mappings.length
  · rw [if_pos h3]; exact hd _
  rw [if_neg h3]
  by_cases h4 : elems.length ≠ s.ncols
  · rw [if_pos h4]; exact hd _
  rw [if_neg h4]
  exact hx

theorem never_convertRow {x : Ctx} {us : List UReq} (h : ∀ u ∈ us, ∀ t, u.throws t = false) : Never (Parser.convertRowU x us) := by
  have hcur : Never (Parser.onCur (Conv.convertCachedU x.cfg us)) := by
    intro s s' hh
    unfold Parser.onCur at hh
    cases h1 : Conv.convertCachedU x.cfg us s.rd.cur.conv with
    | ok o s1 =>
      rw [h1] at hh
      cases hh
      exact never_convertImpl h _ _ h1
    | exc _ _ => rw [h1] at hh; cases hh
    | ub => rw [h1] at hh; cases hh
    | nofuel => rw [h1] at hh; cases hh
  unfold Parser.convertRowU
  cases hm : x.cfg.mode with
  | throw =>
    refine Never.tryCatch (Never.bind_opt hcur fun v => ?_) fun e => ?_
    · exact Never.bind_same fun _ => Never.some_pure _
    · exact Never.bind_same fun _ _ _ hh => by cases hh
  | _ =>
    refine Never.bind_opt hcur fun v => ?_
    exact Never.bind_same fun _ => Never.bind_same fun _ => Never.bind_same fun _ => Never.some_pure _

/-- C60: if the user's code throws for no text, `get_next` is the one of the other theorems. -/
theorem C60_quiet (x : Ctx) (us : List UReq) (s : Parser) (h : ∀ u ∈ us, ∀ t, u.throws t = false) :
    Parser.getNextU x us s = (Parser.getNext x (us.map (·.req)) s).map some := by
  refine C60_no_throw x us s fun s' => ?_
  revert s s'
  show Never (Parser.getNextU x us)
  unfold Parser.getNextU
  refine Never.bind_same fun _ => Never.bind_same fun _ => Never.bind_same fun s => ?_
  by_cases h1 : (!Conv.valid x.cfg s.rd.cur.conv) = true
  · rw [if_pos h1]
    exact Never.bind_same fun _ => Never.bind_same fun _ => Never.some_pure _
  rw [if_neg h1]
  refine Never.bind_same fun _ => ?_
  by_cases h2 : s.eof = true
  · rw [if_pos h2]
    exact Never.bind_same fun _ => Never.some_pure _
  · rw [if_neg h2]
    exact never_convertRow h

theorem thrown_ne_nil {x : Ctx} {s s1 : Parser} {us : List UReq} (ht : Parser.getNextU x us s = .ok none s1) : us ≠ [] := by
  intro h
  subst h
  rw [C60_quiet x [] s (fun u hu => absurd hu (by simp))] at ht
  cases h1 : Parser.getNext x [] s with
  | ok a s2 => rw [List.map_nil, h1] at ht; cases ht
  | exc _ _ => rw [List.map_nil, h1] at ht; cases ht
  | ub => rw [List.map_nil, h1] at ht; cases ht
  | nofuel => rw [List.map_nil, h1] at ht; cases ht

/-- C60, for the rows of a parser without `multiline`, what is true of it: if the user's code throws at the row `l` and
`ls` are the rows behind it, `ignore_next()` returns whether there are any, and if so the next calls get these rows as if
nothing had happened.  Missing from the full statement: without this `ignore_next()` they do not, see `C60_row_twice` and
`C60_first_row`. -/
theorem C60_rows_partial {x : Ctx} {s s1 : Parser} {us : List UReq} {l : Bytes} {ls : List Bytes} (hx : x.Ok)
    (hm : x.cfg.multiline = false) (h : Parser.ReachT x s) (hr : x.rest s.line = l :: ls)
    (ht : Parser.getNextU x us s = .ok none s1) :
    ∃ s2, Parser.ignoreNext x s1 = .ok (!ls.isEmpty) s2 ∧ x.rest s2.line = ls ∧ s2.valid x.cfg = true ∧
      (ls ≠ [] → Parser.ReachT x s2) ∧ ∀ t, s2.converter t = s.converter t := by
  have hne : strings us.length ≠ [] := by
    have := thrown_ne_nil ht
    cases us with
    | nil => exact absurd rfl this
    | cons u us => simp [strings]
  obtain ⟨b, s2, vs, g1, g2, g3, g4⟩ := C60_recover_partial hx h ht
  obtain ⟨o, s', k1, k2, k3, _, k5⟩ := C25_next_row hx hm h.reach hne hr
  have he : Op.exec x (.getNext (strings us.length)) s = .ok (.row (if s2.valid x.cfg then some vs else none)) { s2 with eof := !b } := by
    rw [exec_getNext, M.bind_of_ok g3]; rfl
  simp only [Parser.step, he] at k1
  cases k1
  have hb : b = !ls.isEmpty := by
    have k3 : (!b) = ls.isEmpty := k3
    rw [← k3, Bool.not_not]
  refine ⟨s2, hb ▸ g1, k2, g2, fun hl => (g4 ?_).2, k5⟩
  rw [hb]
  cases ls with
  | nil => exact absurd rfl hl
  | cons _ _ => rfl

/-- C60: an exception of the callback of `try_next` costs nothing: the parser is as after a successful `get_next` of the
same types, so the next call reads the next row. -/
theorem C60_callback {x : Ctx} {s s1 : Parser} {a : Parser.UAlt} (ht : Parser.tryNextU x a s = .ok none s1) :
    ∃ vs, Parser.getNext x a.alt.reqs s = .ok vs s1 ∧ s1.valid x.cfg = true ∧ a.throws vs = true ∧ (Parser.ReachT x s → Parser.ReachT x s1) := by
  unfold Parser.tryNextU at ht
  rw [M.bind_apply] at ht
  cases h1 : Parser.getNext x a.alt.reqs s with
  | ok vs s2 =>
    rw [h1] at ht
    simp only [M.get_bind] at ht
    by_cases hv : s2.valid x.cfg = true
    · rw [if_pos hv] at ht
      by_cases hf : (a.alt.fn.isSome && a.throws vs) = true
      · rw [if_pos hf] at ht
        cases ht
        refine ⟨vs, rfl, hv, by simp at hf; exact hf.2, fun h => ?_⟩
        refine h.step (op := .getNext a.alt.reqs) Op.Tame.getNext
          (o := Parser.observe x (.row (if s1.valid x.cfg then some vs else none)) s1) ?_
        have he : Op.exec x (.getNext a.alt.reqs) s = .ok (.row (if s1.valid x.cfg then some vs else none)) s1 := by
          rw [exec_getNext, M.bind_of_ok h1]; rfl
        simp only [Parser.step, he]
      · rw [if_neg hf] at ht
        exact absurd ht (Never.bind_same (fun _ => Never.bind_same fun _ => Never.some_pure _) _ _)
    · rw [if_neg hv] at ht; cases ht
  | exc _ _ => rw [h1] at ht; cases ht
  | ub => rw [h1] at ht; cases ht
  | nofuel => rw [h1] at ht; cases ht

/-- C60: a `try_next` that no exception of the user's code leaves is the `try_next` of the other theorems: same value,
same call of the callback, same parser behind it. -/
theorem C60_callback_no_throw (x : Ctx) (a : Parser.UAlt) (s : Parser) (h : ∀ s', Parser.tryNextU x a s ≠ .ok none s') :
    Parser.tryNextU x a s = (Parser.tryNext x a.alt s).map some := by
  have key : Unless (Parser.tryNextU x a) (Parser.tryNext x a.alt) := by
    unfold Parser.tryNextU Parser.tryNext
    refine Unless.bind_same fun v => Unless.bind_same fun s => ?_
    by_cases h1 : s.valid x.cfg = true
    · rw [if_pos h1, if_pos h1]
      by_cases h2 : (a.alt.fn.isSome && a.throws v) = true
      · rw [if_pos h2]; exact fun s => .inl ⟨s, rfl⟩
      · rw [if_neg h2]
        exact Unless.bind_same fun _ => Unless.bind_same fun _ => Unless.some_pure _
    · rw [if_neg h1, if_neg h1]
      exact Unless.some_pure _
  rcases key s with ⟨s', h'⟩ | h'
  · exact absurd h' (h s')
  · exact h'

/-- C60: a callback that throws for no values makes no difference. -/
theorem C60_callback_quiet (x : Ctx) (a : Parser.UAlt) (s : Parser) (h : ∀ vs, a.throws vs = false) :
    Parser.tryNextU x a s = (Parser.tryNext x a.alt s).map some := by
  refine C60_callback_no_throw x a s fun s' hs => ?_
  obtain ⟨vs, _, _, ht, _⟩ := C60_callback hs
  rw [h vs] at ht
  cases ht

/-! ## Witnesses -/

namespace Demo

/-- a conversion to `int` that throws for the text "2" -/
def picky : UReq := ⟨num, fun t => t = bs "2"⟩

/-- `get_next<int>()`, one that throws inside, and the next `get_next<int>()`; with `repair`, `ignore_next()` is called
between the last two -/
def twice (d : String) (repair : Bool) : Option (List Val × List Val) :=
  match Parser.getNext (ctx cs d) [num] (start cs d) with
  | .ok v s1 =>
    match Parser.getNextU (ctx cs d) [picky] s1 with
    | .ok none s2 =>
      let s3 := if repair then (match Parser.ignoreNext (ctx cs d) s2 with | .ok _ s => s | _ => s2) else s2
      match Parser.getNext (ctx cs d) [num] s3 with
      | .ok w _ => some (v, w)
      | _ => none
    | _ => none
  | _ => none

end Demo

open Demo in
/-- C60, found while proving `C60_recover_partial`: when a conversion throws an exception of its own in `get_next`, the next
`get_next` returns the row before: here rows "1", "2", "3", an exception at "2", and the next row is again "1". -/
theorem C60_row_twice : twice "1\n2\n3\n" false = some ([.int 1], [.int 1]) := by decide +kernel

open Demo in
/-- with `ignore_next()` after the exception it is "3" (`C60_rows_partial`) -/
example : twice "1\n2\n3\n" true = some ([.int 1], [.int 3]) := by decide +kernel

open Demo in
/-- C60: if it happens at the first row, the next `get_next` reads through a null pointer. -/
theorem C60_first_row : ∃ a s, Parser.getNextU (ctx cs "2\n3\n") [picky] (start cs "2\n3\n") = .ok a s ∧
    (a = none ∧ Parser.getNext (ctx cs "2\n3\n") [num] s = .ub) := by
  have h : ∃ a s, Parser.getNextU (ctx cs "2\n3\n") [picky] (start cs "2\n3\n") = .ok a s ∧
      (a = none ∧ (match Parser.getNext (ctx cs "2\n3\n") [num] s with | .ub => true | _ => false) = true) :=
    Res.ok_of (by decide +kernel)
  obtain ⟨a, s, h1, h2, h3⟩ := h
  refine ⟨a, s, h1, h2, ?_⟩
  cases hg : Parser.getNext (ctx cs "2\n3\n") [num] s with
  | ub => rfl
  | ok _ _ => rw [hg] at h3; cases h3
  | exc _ _ => rw [hg] at h3; cases h3
  | nofuel => rw [hg] at h3; cases h3

open Demo in
/-- the hypotheses of `C60_recover_partial` and `C60_rows_partial` are met, here at the first row of a new parser -/
example : (ctx cs "2\n3\n").Ok ∧ cs.multiline = false ∧ Parser.ReachT (ctx cs "2\n3\n") (start cs "2\n3\n") ∧
    (ctx cs "2\n3\n").rest (start cs "2\n3\n").line = [bs "2", bs "3"] ∧
    ∃ a s, Parser.getNextU (ctx cs "2\n3\n") [picky] (start cs "2\n3\n") = .ok a s ∧ a = none :=
  ⟨ok cs cs_wf _, rfl, (created cs_wf rfl _).reachT, by decide +kernel, Res.ok_of (by decide +kernel)⟩

open Demo in
/-- those of `C60_callback`: a callback that throws for the number 2 -/
example : ∃ a s, Parser.tryNextU (ctx cs "2\n3\n") ⟨⟨[num], some fun _ => none⟩, fun vs => vs = [.int 2]⟩ (start cs "2\n3\n") = .ok a s ∧
    a = none :=
  Res.ok_of (by decide +kernel)

end Ssp
