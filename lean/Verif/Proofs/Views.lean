import Verif.Spec.Views
import Verif.Proofs.MachineKeep
import Verif.Proofs.Convert
/-!
# Which calls leave the line of the present row alone
-/
namespace Ssp

/-! ## Conversions do not change the line -/

/-- the conversion state but for the error -/
def SameLine (s0 s : Conv) : Prop := s.spl = s0.spl ∧ s.mappings = s0.mappings

namespace Conv
variable {c : Cfg} {s0 : Conv}

theorem handleError_same {m : Bytes} {s : Conv} (h : SameLine s0 s) : Part (SameLine s0) (handleError c m s) := by
  unfold handleError
  cases c.mode <;> exact h

theorem bad_same {s : Conv} (h : SameLine s0 s) : Part (SameLine s0) (handleErrorBadSplit c s) := by
  unfold handleErrorBadSplit
  cases c.mode <;> exact h

theorem extractAt_same {t : Ty} {p : Nat × Nat} {v : Val} {s : Conv} (h : SameLine s0 s) :
    Part (SameLine s0) (extractAt t p v s) := by
  unfold extractAt
  split
  · trivial
  · cases extract s.spl.mem p.1 p.2 t v <;> first | trivial | exact h

theorem extractOne_same {r : Req} {p : Nat × Nat} {i : Nat} {v : Val} {s : Conv} (h : SameLine s0 s) :
    Part (SameLine s0) (extractOne c r p i v s) := by
  unfold extractOne
  refine Part.bind (Part.get h) fun _ _ h => Part.ite h ?_
  have key : ∀ t, Part (SameLine s0) ((extractAt t p v >>= fun r =>
      if !r.1 then textOf p >>= fun text => handleError c (msgInvalidConversion text i) >>= fun _ => pure r.2
      else pure r.2) ‹_›) := fun t =>
    Part.bind (extractAt_same h) fun _ _ h => Part.ite
      (Part.bind (m := textOf p) h fun _ _ h => Part.bind (handleError_same h) fun _ _ h => h) h
  cases r with
  | void => exact h
  | ty t =>
    cases t with
    | str => exact Part.bind (extractAt_same h) fun _ _ h => h
    | _ => exact key _
  | valid t q msg =>
    refine Part.bind (extractAt_same h) fun _ _ h => Part.ite ?_ (Part.ite ?_ h)
    · exact Part.bind (m := textOf p) h fun _ _ h => Part.bind (handleError_same h) fun _ _ h => h
    · exact Part.bind (m := textOf p) h fun _ _ h => Part.bind (handleError_same h) fun _ _ h => h

theorem columnPosition_same {i : Nat} {s : Conv} (h : SameLine s0 s) : Part (SameLine s0) (columnPosition i s) := by
  unfold columnPosition
  split
  · exact h
  · cases s.mappings[i]? <;> first | trivial | exact h

theorem elemAt_same {es : List (Nat × Nat)} {i : Nat} {s : Conv} (h : SameLine s0 s) : Part (SameLine s0) (elemAt es i s) := by
  unfold elemAt
  cases es[i]? <;> first | trivial | exact h

theorem extractMultiple_same {es : List (Nat × Nat)} : ∀ {rs : List Req} {i : Nat} {s : Conv}, SameLine s0 s →
    Part (SameLine s0) (extractMultiple c es rs i s) := by
  intro rs
  induction rs with
  | nil => intro i s h; exact h
  | cons r rs ih =>
    intro i s h
    have key : Part (SameLine s0) ((columnPosition i >>= fun k => elemAt es k >>= fun p =>
        extractOne c r p i r.dflt >>= fun v => extractMultiple c es rs (i + 1) >>= fun vs => pure (v :: vs)) s) :=
      Part.bind (columnPosition_same h) fun _ _ h => Part.bind (elemAt_same h) fun _ _ h =>
        Part.bind (extractOne_same h) fun _ _ h => Part.bind (ih h) fun _ _ h => h
    cases r with
    | void => exact ih h
    | ty t => exact key
    | valid t q m => exact key

theorem convertCached_same {rs : List Req} {s : Conv} (h : SameLine s0 s) : Part (SameLine s0) (convertCached c rs s) := by
  unfold convertCached
  refine Part.bind (Part.get h) fun s1 _ h => ?_
  unfold convertImpl
  refine Part.bind (m := clearError c) h fun _ _ h => ?_
  refine Part.bind (Part.get h) fun _ _ h => Part.ite (Part.bind (bad_same h) fun _ _ h => h) (Part.ite (Part.ite ?_ ?_)
    (Part.ite ?_ (Part.ite ?_ ?_)))
  · exact Part.bind (handleError_same h) fun _ _ h => h
  · exact extractMultiple_same h
  · exact Part.bind (handleError_same h) fun _ _ h => h
  · exact Part.bind (handleError_same h) fun _ _ h => h
  · exact extractMultiple_same h

/-! ## The values of a row -/

theorem ok_bind_ok {σ α β : Type} {m : M σ α} {f : α → M σ β} {s t : σ} {b : β} (h : (m >>= f) s = .ok b t) :
    ∃ a u, m s = .ok a u ∧ f a u = .ok b t := by
  rw [M.bind_apply] at h
  cases hm : m s with
  | ok a u => rw [hm] at h; exact ⟨a, u, rfl, h⟩
  | exc e u => rw [hm] at h; cases h
  | ub => rw [hm] at h; cases h
  | nofuel => rw [hm] at h; cases h

theorem handleError_invalid {m : Bytes} {s s' : Conv} (hm : m ≠ []) (h : handleError c m s = .ok () s') : s'.err.valid c.mode = false := by
  rw [handleError_eq] at h
  split at h
  · cases h
  · rename_i hc
    cases h
    exact ErrSt.valid_set hc hm _

/-- the pointers of a column, and the value made of what they point to -/
def ReadsAt (s : Conv) (r : Req × Nat) (v : Val) : Prop :=
  ∃ p, s.column r.2 = some p ∧ s.spl.gen = s.spl.lineGen ∧ p.1 ≤ p.2 ∧ p.2 ≤ s.spl.mem.length ∧ r.1.Reads s.spl.mem p v

theorem extractAt_ok {t : Ty} {p : Nat × Nat} {v : Val} {q : Bool × Val} {s s' : Conv} (h : extractAt t p v s = .ok q s') :
    s' = s ∧ s.spl.gen = s.spl.lineGen ∧ p.1 ≤ p.2 ∧ p.2 ≤ s.spl.mem.length ∧ extract s.spl.mem p.1 p.2 t v = some q := by
  unfold extractAt at h
  split at h
  · cases h
  · rename_i hn
    cases he : extract s.spl.mem p.1 p.2 t v with
    | none => rw [he] at h; cases h
    | some r =>
      rw [he] at h; cases h
      refine ⟨rfl, ?_, ?_, ?_, rfl⟩
      · exact Classical.byContradiction fun hc => hn (.inl hc)
      · omega
      · omega

theorem msgInvalid_ne {t : Bytes} {i : Nat} : msgInvalidConversion t i ≠ [] := by
  unfold msgInvalidConversion; simp [bs]

theorem msgValidation_ne {m t : Bytes} {i : Nat} : msgValidationFailed m t i ≠ [] := by
  unfold msgValidationFailed errorSuffix; simp [bs]

theorem extractOne_ok {r : Req} {p : Nat × Nat} {i : Nat} {v : Val} {s s' : Conv} (hr : r ≠ .void)
    (h : extractOne c r p i r.dflt s = .ok v s') (hv' : s'.err.valid c.mode = true) (hv : s.err.valid c.mode = true) :
    s' = s ∧ s.spl.gen = s.spl.lineGen ∧ p.1 ≤ p.2 ∧ p.2 ≤ s.spl.mem.length ∧ r.Reads s.spl.mem p v := by
  unfold extractOne at h
  simp only [M.get_bind, hv, Bool.not_true, Bool.false_eq_true, if_false] at h
  have key : ∀ t, (extractAt t p t.dflt >>= fun r =>
      if !r.1 then textOf p >>= fun text => handleError c (msgInvalidConversion text i) >>= fun _ => pure r.2
      else pure r.2) s = .ok v s' →
      s' = s ∧ s.spl.gen = s.spl.lineGen ∧ p.1 ≤ p.2 ∧ p.2 ≤ s.spl.mem.length ∧ (Req.ty t).Reads s.spl.mem p v := by
    intro t h
    obtain ⟨q, u, h1, h2⟩ := ok_bind_ok h
    obtain ⟨rfl, a, b, d, e⟩ := extractAt_ok h1
    cases hq : q.1 with
    | false =>
      simp only [hq, Bool.not_false, if_true] at h2
      obtain ⟨q2, u2, h3, h4⟩ := ok_bind_ok h2
      obtain ⟨q3, u3, h5, h6⟩ := ok_bind_ok h4
      have := handleError_invalid msgInvalid_ne h5
      cases h6
      rw [hv'] at this; cases this
    | true =>
      simp only [hq, Bool.not_true, Bool.false_eq_true, if_false] at h2
      cases h2
      exact ⟨rfl, a, b, d, by show extract _ _ _ t t.dflt = _; exact e.trans (by rw [← hq])⟩
  cases r with
  | void => exact absurd rfl hr
  | ty t =>
    cases t with
    | str =>
      obtain ⟨q, u, h1, h2⟩ := ok_bind_ok h
      obtain ⟨rfl, a, b, d, e⟩ := extractAt_ok h1
      cases h2
      refine ⟨rfl, a, b, d, ?_⟩
      unfold extract at e
      cases e
      unfold Req.Reads extract
      rfl
    | _ => exact key _ h
  | valid t g msg =>
    obtain ⟨q, u, h1, h2⟩ := ok_bind_ok h
    obtain ⟨rfl, a, b, d, e⟩ := extractAt_ok h1
    cases hq : q.1 with
    | false =>
      simp only [hq, Bool.not_false, if_true] at h2
      obtain ⟨q2, u2, h3, h4⟩ := ok_bind_ok h2
      obtain ⟨q3, u3, h5, h6⟩ := ok_bind_ok h4
      have := handleError_invalid msgInvalid_ne h5
      cases h6
      rw [hv'] at this; cases this
    | true =>
      simp only [hq, Bool.not_true, Bool.false_eq_true, if_false] at h2
      cases hg : g q.2 with
      | false =>
        simp only [hg, Bool.not_false, if_true] at h2
        obtain ⟨q2, u2, h3, h4⟩ := ok_bind_ok h2
        obtain ⟨q3, u3, h5, h6⟩ := ok_bind_ok h4
        have := handleError_invalid msgValidation_ne h5
        cases h6
        rw [hv'] at this; cases this
      | true =>
        simp only [hg, Bool.not_true, Bool.false_eq_true, if_false] at h2
        cases h2
        exact ⟨rfl, a, b, d, by show extract _ _ _ t t.dflt = _; exact e.trans (by rw [← hq])⟩

theorem extractMultiple_invalid' {es : List (Nat × Nat)} : ∀ {rs : List Req} {i : Nat} {s s' : Conv} {vs : List Val},
    s.err.valid c.mode = false → extractMultiple c es rs i s = .ok vs s' → s'.err.valid c.mode = false := by
  intro rs
  induction rs with
  | nil => intro i s s' vs hv h; cases h; exact hv
  | cons r rs ih =>
    intro i s s' vs hv h
    have key : (columnPosition i >>= fun k => elemAt es k >>= fun p => extractOne c r p i r.dflt >>= fun v =>
        extractMultiple c es rs (i + 1) >>= fun vs => pure (v :: vs)) s = .ok vs s' → s'.err.valid c.mode = false := by
      intro h
      obtain ⟨k, u1, h1, h2⟩ := ok_bind_ok h
      obtain ⟨p, u2, h3, h4⟩ := ok_bind_ok h2
      obtain ⟨v, u3, h5, h6⟩ := ok_bind_ok h4
      obtain ⟨vs', u4, h7, h8⟩ := ok_bind_ok h6
      have e1 : u1 = s := by
        unfold columnPosition at h1
        split at h1
        · cases h1; rfl
        · cases hp : s.mappings[i]? <;> rw [hp] at h1 <;> cases h1; rfl
      have e2 : u2 = u1 := by
        unfold elemAt at h3
        cases hp : es[k]? <;> rw [hp] at h3 <;> cases h3; rfl
      subst e1; subst e2
      rw [extractOne_invalid hv] at h5
      cases h5
      cases h8
      exact ih hv h7
    cases r with
    | void => exact ih hv h
    | ty t => exact key h
    | valid t q m => exact key h

theorem extractMultiple_ok : ∀ {rs : List Req} {i : Nat} {s s' : Conv} {vs : List Val},
    s.err.valid c.mode = true → extractMultiple c s.spl.data rs i s = .ok vs s' → s'.err.valid c.mode = true →
    All2 (ReadsAt s) (valued rs i) vs := by
  intro rs
  induction rs with
  | nil => intro i s s' vs _ h _; cases h; exact .nil
  | cons r rs ih =>
    intro i s s' vs hv h hv'
    have key : r ≠ .void → (columnPosition i >>= fun k => elemAt s.spl.data k >>= fun p => extractOne c r p i r.dflt >>= fun v =>
        extractMultiple c s.spl.data rs (i + 1) >>= fun vs => pure (v :: vs)) s = .ok vs s' →
        All2 (ReadsAt s) ((r, i) :: valued rs (i + 1)) vs := by
      intro hr h
      obtain ⟨k, u1, h1, h2⟩ := ok_bind_ok h
      obtain ⟨p, u2, h3, h4⟩ := ok_bind_ok h2
      obtain ⟨v, u3, h5, h6⟩ := ok_bind_ok h4
      obtain ⟨vs', u4, h7, h8⟩ := ok_bind_ok h6
      cases h8
      have e2 : u2 = u1 ∧ s.spl.data[k]? = some p := by
        unfold elemAt at h3
        cases hp : s.spl.data[k]? <;> rw [hp] at h3 <;> cases h3; exact ⟨rfl, rfl⟩
      have e1 : u1 = s ∧ s.column i = s.spl.data[k]? := by
        unfold columnPosition at h1
        unfold column
        split at h1
        · rename_i hm; cases h1; exact ⟨rfl, by rw [if_pos hm]⟩
        · rename_i hm
          cases hp : s.mappings[i]? <;> rw [hp] at h1 <;> cases h1
          exact ⟨rfl, by rw [if_neg hm]; rfl⟩
      obtain ⟨rfl, hc⟩ := e1
      obtain ⟨rfl, hp⟩ := e2
      have hv3 : u3.err.valid c.mode = true := by
        cases hu : u3.err.valid c.mode with
        | true => rfl
        | false => rw [extractMultiple_invalid' hu h7] at hv'; cases hv'
      obtain ⟨rfl, a, b, d, e⟩ := extractOne_ok hr h5 hv3 hv
      exact .cons ⟨p, hc.trans hp, a, b, d, e⟩ (ih hv h7 hv')
    cases r with
    | void => exact ih hv h hv'
    | ty t => exact key (by simp) h
    | valid t q m => exact key (by simp) h

theorem convertCached_ok {rs : List Req} {s s' : Conv} {vs : List Val} (h : convertCached c rs s = .ok vs s')
    (hv : s'.err.valid c.mode = true) : SameLine s s' ∧ All2 (ReadsAt s') (valued rs 0) vs := by
  have hs : SameLine s s' := by
    have := convertCached_same (c := c) (rs := rs) (s0 := s) (s := s) ⟨rfl, rfl⟩
    rw [h] at this; exact this
  refine ⟨hs, ?_⟩
  have key : All2 (ReadsAt { s with err := s.err.clear c.mode }) (valued rs 0) vs := by
    unfold convertCached convertImpl clearError at h
    simp only [M.get_bind, M.modify_bind] at h
    have he : ∀ {m : Bytes}, m ≠ [] → ¬ (handleError c m >>= fun _ => (pure (defaults rs) : M Conv (List Val)))
        { s with err := s.err.clear c.mode } = .ok vs s' := by
      intro m hm h
      obtain ⟨_, u, h1, h2⟩ := ok_bind_ok h
      have := handleError_invalid hm h1
      cases h2
      rw [hv] at this; cases this
    have hex := fun h => extractMultiple_ok (rs := rs) (i := 0) (vs := vs) (c := c) (s' := s')
      (s := { s with err := s.err.clear c.mode }) (ErrSt.valid_clear _ _) h hv
    split at h
    · rename_i hbad
      obtain ⟨_, u, h1, h2⟩ := ok_bind_ok h
      cases h2
      exfalso
      unfold handleErrorBadSplit at h1
      cases h1
      cases hm : c.mode with
      | throw => simp [hm, ErrSt.valid] at hbad
      | string => simp [hm, ErrSt.valid] at hbad hv; exact hbad hv
      | bool => simp [hm, ErrSt.valid] at hv
    · split at h
      · split at h
        · exact absurd h (he (by unfold msgNumberOfColumns; simp [bs]))
        · exact hex h
      · split at h
        · exact absurd h (he (by unfold msgIncompatibleMapping; simp [bs]))
        · split at h
          · exact absurd h (he (by unfold msgNumberOfColumns; simp [bs]))
          · exact hex h
  have conv2 : ∀ {rs : List (Req × Nat)} {vs : List Val}, All2 (ReadsAt { s with err := s.err.clear c.mode }) rs vs →
      All2 (ReadsAt s') rs vs := by
    intro rs vs h
    induction h with
    | nil => exact .nil
    | cons h _ ih =>
      refine .cons ?_ ih
      unfold ReadsAt column at h ⊢
      rw [hs.1, hs.2]
      exact h
  exact conv2 key

end Conv

/-! ## Reading the next line does not change the line of the present row -/

namespace Reader
variable {x : Ctx} {c0 : Slot}

/-- the present line, its converter and its size -/
def SameCur (c0 : Slot) (s : Reader) : Prop := s.cur = c0

theorem onNext_same {α : Type} {m : M Conv α} {s : Reader} (h : SameCur c0 s) : Part (SameCur c0) (onNext m s) := by
  unfold onNext
  cases m s.next.conv <;> first | trivial | exact h

theorem getLineNext_same {s : Reader} (h : SameCur c0 s) : Part (SameCur c0) (getLineNext x s) := by
  unfold getLineNext
  cases Io.getLine x.env x.src s.ioNext <;> first | trivial | exact h

theorem wrNext_same {p : Nat} {b : Byte} {s : Reader} (h : SameCur c0 s) : Part (SameCur c0) (wrNext p b s) := by
  unfold wrNext; split <;> first | trivial | exact h

theorem removeEolNext_same {n : Nat} {s : Reader} (h : SameCur c0 s) : Part (SameCur c0) (removeEolNext n s) := by
  unfold removeEolNext
  refine Part.bind (Part.get h) fun a s h => ?_
  cases eolSize a.next.conv.spl.mem n with
  | none => trivial
  | some p => exact Part.bind (m := M.modify _) h fun _ _ h => Part.ite h (Part.bind (wrNext_same h) fun _ _ h => h)

theorem readNextLoop_same : ∀ (f : Nat) {s : Reader}, SameCur c0 s → Part (SameCur c0) (readNextLoop x f s) := by
  intro f
  induction f with
  | zero => intros; trivial
  | succ f ih =>
    intro s h
    unfold readNextLoop
    refine Part.bind (m := M.modify _) h fun _ _ h => ?_
    refine Part.bind (Part.get h) fun a _ h => ?_
    refine Part.bind (Part.ite (wrNext_same h) h) fun _ _ h => ?_
    refine Part.bind (m := M.modify _) h fun _ _ h => ?_
    refine Part.bind (getLineNext_same h) fun o _ h => ?_
    cases o with
    | none => exact h
    | some n => exact Part.bind (removeEolNext_same h) fun _ _ h => Part.ite (ih h) (Part.bind (m := M.modify _) h fun _ _ h => h)

theorem readNext_same {s : Reader} (h : SameCur c0 s) : Part (SameCur c0) (readNext x s) :=
  Part.bind (onNext_same h) fun _ _ h => readNextLoop_same _ h

end Reader

/-! ## The calls on a parser -/

namespace Parser
variable {x : Ctx} {sp : Spl}

/-- the line of the present row and what was split of it -/
def SameSpl (sp : Spl) (s : Parser) : Prop := s.rd.cur.conv.spl = sp

theorem readRd_same {s : Parser} (h : SameSpl sp s) : Part (SameSpl sp) (onRd (Reader.readNext x) s) := by
  have := Reader.readNext_same (x := x) (s := s.rd) (c0 := s.rd.cur) rfl
  unfold onRd
  cases hr : Reader.readNext x s.rd with
  | ok a r => rw [hr] at this; exact (congrArg (fun c : Slot => c.conv.spl) this).trans h
  | exc a r => rw [hr] at this; exact (congrArg (fun c : Slot => c.conv.spl) this).trans h
  | ub => trivial
  | nofuel => trivial

theorem handleError_same {m : Bytes} {s : Parser} (h : SameSpl sp s) : Part (SameSpl sp) (handleError x.cfg m s) := by
  unfold handleError; cases x.cfg.mode <;> exact h

theorem readLine_same {s : Parser} (h : SameSpl sp s) : Part (SameSpl sp) (readLine x s) :=
  Part.bind (readRd_same h) fun _ _ h => h

theorem strictSplit_same {s : Parser} (h : SameSpl sp s) : Part (SameSpl sp) (strictSplit x s) := by
  unfold strictSplit
  cases Spl.split (headerCfg x) x.delim { mem := s.rawHeader ++ [NUL] } with
  | ok a p => simp only; split <;> exact h
  | exc e p => exact h
  | ub => trivial
  | nofuel => trivial

theorem columnsOf_same {p : Spl} {s : Parser} (h : SameSpl sp s) : Part (SameSpl sp) (columnsOf p s) := by
  unfold columnsOf; split <;> first | trivial | exact h

theorem getHeader_same {s : Parser} (h : SameSpl sp s) : Part (SameSpl sp) (getHeader x s) := by
  unfold getHeader
  refine Part.bind (m := clearError x.cfg) h fun _ _ h => Part.bind (strictSplit_same h) fun o _ h => ?_
  cases o with
  | none => exact h
  | some p => exact columnsOf_same h

theorem addHeader_same : ∀ (fs : List Bytes) {s : Parser}, SameSpl sp s → Part (SameSpl sp) (addHeader x fs s) := by
  intro fs
  induction fs with
  | nil => intro s h; exact h
  | cons f fs ih =>
    intro s h
    unfold addHeader
    refine Part.bind (Part.get h) fun _ _ h => Part.ite ?_ ?_
    · exact Part.bind (handleError_same h) fun _ _ h => h
    · exact Part.bind (m := M.modify _) h fun _ _ h => ih h

theorem splitHeaderDataIf_same {p : Parser → Bool} {s : Parser} (h : SameSpl sp s) :
    Part (SameSpl sp) (splitHeaderDataIf x p s) := by
  unfold splitHeaderDataIf
  split
  · unfold splitHeaderData
    refine Part.bind (strictSplit_same h) fun o _ h => ?_
    cases o with
    | none => exact h
    | some p => exact Part.bind (columnsOf_same h) fun _ _ h => addHeader_same _ h
  · exact h

theorem fieldExists_same {f : Bytes} {s : Parser} (h : SameSpl sp s) : Part (SameSpl sp) (fieldExists x f s) := by
  unfold fieldExists
  refine Part.bind (m := clearError x.cfg) h fun _ _ h => Part.bind (splitHeaderDataIf_same h) fun _ _ h => ?_
  exact Part.bind (Part.get h) fun _ _ h => Part.ite h h

theorem mapFields_same {all : List Bytes} : ∀ (fs : List Bytes) {s : Parser}, SameSpl sp s →
    Part (SameSpl sp) (mapFields x all fs s) := by
  intro fs
  induction fs with
  | nil => intro s h; exact h
  | cons f fs ih =>
    intro s h
    unfold mapFields
    refine Part.ite ?_ ?_
    · exact Part.bind (handleError_same h) fun _ _ h => h
    · refine Part.bind (Part.get h) fun a _ h => ?_
      cases a.headerIndex f with
      | none => exact Part.bind (handleError_same h) fun _ _ h => h
      | some i =>
        refine Part.bind (ih h) fun o _ h => ?_
        cases o <;> exact h

theorem useFields_same {fs : List Bytes} {s : Parser} (h : SameSpl sp s) : Part (SameSpl sp) (useFields x fs s) := by
  unfold useFields
  refine Part.bind (m := clearError x.cfg) h fun _ _ h => Part.bind (splitHeaderDataIf_same h) fun _ _ h => ?_
  refine Part.bind (Part.get h) fun _ _ h => Part.ite h (Part.ite (handleError_same h) ?_)
  refine Part.bind (mapFields_same _ h) fun o _ h => ?_
  cases o with
  | none => exact h
  | some sel =>
    refine Part.bind (m := setMapping sel) h fun _ _ h => Part.bind (Part.get h) fun _ _ h => Part.ite ?_ h
    exact Part.bind (readRd_same h) fun _ _ h => h

theorem exec_same {op : Op} (ho : op.Between) {s : Parser} (h : SameSpl sp s) : Part (SameSpl sp) (op.exec x s) := by
  cases op with
  | getNext rs => exact ho.elim
  | chain a as => exact ho.elim
  | ignoreNext => exact Part.bind (readRd_same h) fun _ _ h => h
  | header => exact Part.bind (getHeader_same h) fun _ _ h => h
  | rawHeader => exact Part.bind (Part.get h) fun _ _ h => h
  | fieldExists f => exact Part.bind (fieldExists_same h) fun _ _ h => h
  | useFields fs => exact Part.bind (useFields_same h) fun _ _ h => h

theorem run_same : ∀ (ops : List Op) {s s' : Parser} {os : List Obs}, (∀ op ∈ ops, op.Between) → SameSpl sp s →
    run x ops s = some (os, s') → SameSpl sp s' := by
  intro ops
  induction ops with
  | nil => intro s s' os _ h hr; simp only [run, Option.some.injEq, Prod.mk.injEq] at hr; rw [← hr.2]; exact h
  | cons op ops ih =>
    intro s s' os ho h hr
    have h1 := exec_same (x := x) (ho op (by simp)) h
    unfold run step at hr
    cases he : op.exec x s with
    | ok r t =>
      rw [he] at h1 hr
      simp only at hr
      cases hr2 : run x ops t with
      | none => rw [hr2] at hr; cases hr
      | some q =>
        rw [hr2] at hr
        simp only [Option.some.injEq, Prod.mk.injEq] at hr
        exact ih (fun o h => ho o (List.mem_cons_of_mem _ h)) h1 (by rw [hr2, ← hr.2])
    | exc r t =>
      rw [he] at h1 hr
      simp only at hr
      cases hr2 : run x ops t with
      | none => rw [hr2] at hr; cases hr
      | some q =>
        rw [hr2] at hr
        simp only [Option.some.injEq, Prod.mk.injEq] at hr
        exact ih (fun o h => ho o (List.mem_cons_of_mem _ h)) h1 (by rw [hr2, ← hr.2])
    | ub => rw [he] at hr; cases hr
    | nofuel => rw [he] at hr; cases hr

end Parser
end Ssp
