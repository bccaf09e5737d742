import Verif.Spec.Convert
import Verif.Proofs.Number
import Verif.Proofs.SplitChain
/-!
# `convert_impl` computes the pure row conversion
-/
namespace Ssp
open Spec

/-- the outcome for one column -/
def reqCheck (r : Req) (i : Nat) (s : Bytes) : Except Bytes (Option Val) :=
  match r with
  | .void => .ok none
  | .ty t =>
    match conv t s with
    | some v => .ok (some v)
    | none => .error (Conv.msgInvalidConversion s i)
  | .valid t q msg =>
    match conv t s with
    | some v => if q v then .ok (some v) else .error (Conv.msgValidationFailed msg s i)
    | none => .error (Conv.msgInvalidConversion s i)

/-- the outcome for a row of columns -/
def rowCols : List Req → Nat → List Bytes → Except Bytes (List Val)
  | [], _, _ => .ok []
  | _ :: _, _, [] => .error []
  | r :: rs, i, s :: ss =>
    match reqCheck r i s with
    | .error m => .error m
    | .ok ov =>
      match rowCols rs (i + 1) ss with
      | .error m => .error m
      | .ok vs => .ok (ov.toList ++ vs)

/-- the columns picked by a selection -/
def selCols (sel : List Nat) (cols : List Bytes) : List Bytes :=
  if sel = [] then cols else sel.map fun i => (cols[i]?).getD []

/-- the outcome of a conversion of `cols` -/
def rowResult (rs : List Req) (sel : List Nat) (ncols : Nat) (cols : List Bytes) : Except Bytes (List Val) :=
  if sel = [] then
    if rs.length ≠ cols.length then .error (Conv.msgNumberOfColumns rs.length cols.length)
    else rowCols rs 0 cols
  else if rs.length ≠ sel.length then .error (Conv.msgIncompatibleMapping rs.length sel.length)
  else if cols.length ≠ ncols then .error (Conv.msgNumberOfColumns ncols cols.length)
  else rowCols rs 0 (selCols sel cols)

theorem bs_append (a b : String) : bs a ++ bs b = bs (a ++ b) := by simp [bs]

theorem msgInvalid_eq (s : Bytes) (i : Nat) : Conv.msgInvalidConversion s i =
    bs "invalid conversion for parameter at column " ++ dec (i + 1) ++ bs ": '" ++ s ++ bs "'" := by
  have : bs "invalid conversion for parameter at column " = bs "invalid conversion for parameter " ++ bs "at column " := by
    decide
  rw [this]; simp [Conv.msgInvalidConversion, Conv.errorSuffix]

theorem msgValidation_eq (e s : Bytes) (i : Nat) : Conv.msgValidationFailed e s i =
    e ++ bs " at column " ++ dec (i + 1) ++ bs ": '" ++ s ++ bs "'" := by
  have : bs " at column " = bs " " ++ bs "at column " := by decide
  rw [this]; simp [Conv.msgValidationFailed, Conv.errorSuffix]

theorem reqCheck_ok {r : Req} {i : Nat} {s : Bytes} {ov : Option Val} : reqCheck r i s = .ok ov ↔ Passes r s ov := by
  constructor
  · intro h
    cases r with
    | void => cases h; exact .void
    | ty t =>
      simp only [reqCheck] at h
      split at h
      · cases h; exact .ty (by assumption)
      · cases h
    | valid t q msg =>
      simp only [reqCheck] at h
      split at h
      · split at h
        · cases h; exact .valid (by assumption) (by assumption)
        · cases h
      · cases h
  · rintro (_ | h | ⟨h, h'⟩) <;> simp [reqCheck, *]

theorem reqCheck_error {r : Req} {i : Nat} {s m : Bytes} : reqCheck r i s = .error m ↔ Fault r i s m := by
  constructor
  · intro h
    cases r with
    | void => cases h
    | ty t =>
      simp only [reqCheck] at h
      split at h
      · cases h
      · cases h; rw [msgInvalid_eq]; exact .ty (by assumption)
    | valid t q msg =>
      simp only [reqCheck] at h
      split at h
      · split at h
        · cases h
        · rename_i hq
          cases h; rw [msgValidation_eq]; exact .valid (by assumption) (by simpa using hq)
      · cases h; rw [msgInvalid_eq]; exact .conv (by assumption)
  · rintro (h | h | ⟨h, h'⟩) <;> simp [reqCheck, msgInvalid_eq, msgValidation_eq, *]

theorem rowCols_ok {rs : List Req} : ∀ {i : Nat} {ss : List Bytes} {vs : List Val}, rs.length = ss.length →
    (rowCols rs i ss = .ok vs ↔ RowIs rs ss vs) := by
  induction rs with
  | nil =>
    intro i ss vs hl
    cases ss with
    | nil =>
      simp only [rowCols, Except.ok.injEq]
      constructor
      · rintro rfl; exact .nil
      · intro h; cases h; rfl
    | cons => simp at hl
  | cons r rs ih =>
    intro i ss vs hl
    cases ss with
    | nil => simp at hl
    | cons s ss =>
      simp only [List.length_cons, Nat.add_right_cancel_iff] at hl
      simp only [rowCols]
      constructor
      · intro h
        split at h
        · cases h
        · rename_i ov ho
          split at h
          · cases h
          · rename_i vs' hv
            cases h
            exact .cons (reqCheck_ok.mp ho) ((ih hl).mp hv)
      · intro h
        cases h with
        | cons h1 h2 => rw [reqCheck_ok.mpr h1]; simp only [(ih hl).mpr h2]

theorem rowCols_error {rs : List Req} : ∀ {i : Nat} {ss : List Bytes} {m : Bytes}, rs.length = ss.length →
    (rowCols rs i ss = .error m ↔ FirstFault rs i ss m) := by
  induction rs with
  | nil =>
    intro i ss m hl
    simp only [rowCols, reduceCtorEq, false_iff]
    intro h; cases h
  | cons r rs ih =>
    intro i ss m hl
    cases ss with
    | nil => simp at hl
    | cons s ss =>
      simp only [List.length_cons, Nat.add_right_cancel_iff] at hl
      simp only [rowCols]
      constructor
      · intro h
        split at h
        · cases h; rename_i he; exact .here (reqCheck_error.mp he)
        · rename_i ov ho
          split at h
          · cases h
            rename_i he
            exact .later (reqCheck_ok.mp ho) ((ih hl).mp he)
          · cases h
      · intro h
        cases h with
        | here h1 => rw [reqCheck_error.mpr h1]
        | later h1 h2 => rw [reqCheck_ok.mpr h1]; simp only [(ih hl).mpr h2]

/-- The conversion state of a splitter whose ranges can be read. -/
structure Readable (s : Spl) : Prop where
  live : s.gen = s.lineGen ∨ s.data = []
  inside : ∀ p ∈ s.data, p.1 ≤ p.2 ∧ p.2 < s.mem.length

namespace Conv

/-- what an operation on the error state did -/
def ErrSet (c : Cfg) (s : Conv) (res : Res Conv (List Val)) : Except Bytes (List Val) → Prop
  | .ok vs => res = .ok vs s
  | .error m =>
    if c.mode = .throw then res = .exc m s
    else ∃ vs, res = .ok vs { s with err := s.err.set c.mode m }

theorem handleError_eq (c : Cfg) (m : Bytes) (s : Conv) : handleError c m s =
    if c.mode = .throw then .exc m s else .ok () { s with err := s.err.set c.mode m } := by
  unfold handleError
  cases h : c.mode <;> simp

theorem extractOne_invalid {c : Cfg} {r : Req} {p : Nat × Nat} {i : Nat} {dst : Val} {s : Conv}
    (h : s.err.valid c.mode = false) : extractOne c r p i dst s = .ok dst s := by
  simp [extractOne, h]

theorem extractMultiple_invalid {c : Cfg} {elems : List (Nat × Nat)} : ∀ {rs : List Req} {i : Nat} {s : Conv},
    s.err.valid c.mode = false →
    (∀ k, i ≤ k → k < i + rs.length → ∃ j p, columnPosition k s = .ok j s ∧ elems[j]? = some p) →
    ∃ vs, extractMultiple c elems rs i s = .ok vs s
  | [], i, s, _, _ => ⟨_, rfl⟩
  | r :: rs, i, s, h, hk => by
    obtain ⟨vs, hv⟩ := extractMultiple_invalid (rs := rs) (i := i + 1) h
      (fun k h1 h2 => hk k (by omega) (by simp; omega))
    obtain ⟨j, p, h1, h2⟩ := hk i (Nat.le_refl _) (by simp)
    have hE : elemAt elems j s = .ok p s := by simp [elemAt, h2]
    cases r with
    | void => exact ⟨vs, hv⟩
    | ty t =>
      refine ⟨(Req.ty t).dflt :: vs, ?_⟩
      unfold extractMultiple
      rw [M.bind_of_ok h1, M.bind_of_ok hE, M.bind_of_ok (extractOne_invalid h), M.bind_of_ok hv]
      rfl
    | valid t q msg =>
      refine ⟨(Req.valid t q msg).dflt :: vs, ?_⟩
      unfold extractMultiple
      rw [M.bind_of_ok h1, M.bind_of_ok hE, M.bind_of_ok (extractOne_invalid h), M.bind_of_ok hv]
      rfl

theorem extractAt_spec {t : Ty} {p : Nat × Nat} {s : Conv} (hl : s.spl.gen = s.spl.lineGen) (h1 : p.1 ≤ p.2)
    (h2 : p.2 < s.spl.mem.length) : ∃ ok v, extractAt t p t.dflt s = .ok (ok, v) s ∧
      conv t (textAt s.spl.mem p.1 p.2) = if ok then some v else none := by
  obtain ⟨⟨ok, v⟩, e1, e2⟩ := extract_conv h1 h2 t
  refine ⟨ok, v, ?_, ?_⟩
  · unfold extractAt
    rw [if_neg (by simp only [hl, ne_eq, not_true_eq_false, false_or]; omega), e1]
  · rcases e2 with ⟨a, b⟩ | ⟨a, b⟩
    · simp only at a b; simp [a, b]
    · simp only at a b; simp [a, b]

theorem extractOne_spec {c : Cfg} {r : Req} {p : Nat × Nat} {i : Nat} {s : Conv} (hr : r ≠ .void)
    (hv : s.err.valid c.mode = true) (hl : s.spl.gen = s.spl.lineGen) (h1 : p.1 ≤ p.2)
    (h2 : p.2 < s.spl.mem.length) :
    match reqCheck r i (textAt s.spl.mem p.1 p.2) with
    | .ok (some v) => extractOne c r p i r.dflt s = .ok v s
    | .ok none => False
    | .error m => if c.mode = .throw then extractOne c r p i r.dflt s = .exc m s
      else ∃ v, extractOne c r p i r.dflt s = .ok v { s with err := s.err.set c.mode m } := by
  cases r with
  | void => exact absurd rfl hr
  | ty t =>
    obtain ⟨ok, v, e1, e2⟩ := extractAt_spec (t := t) hl h1 h2
    simp only [reqCheck, e2]
    by_cases hs : t = .str
    · subst hs
      have : ok = true := by
        cases ok with
        | true => rfl
        | false => simp [conv, extract] at e2
      subst this
      simp only [if_true, extractOne, M.get_bind, hv, Bool.not_true, Bool.false_eq_true, if_false, Req.dflt]
      rw [M.bind_of_ok e1]; rfl
    · have hx : extractOne c (.ty t) p i (Req.ty t).dflt s = (extractAt t p t.dflt >>= fun r =>
          if !r.1 then textOf p >>= fun text => handleError c (msgInvalidConversion text i) >>= fun _ => pure r.2
          else pure r.2) s := by
        simp only [extractOne, M.get_bind, hv, Bool.not_true, Bool.false_eq_true, if_false, Req.dflt]
      rw [hx, M.bind_of_ok e1]
      cases ok with
      | true => simp
      | false =>
        simp only [Bool.not_false, if_true, Bool.false_eq_true, if_false]
        rw [M.bind_of_ok (show textOf p s = .ok _ s from rfl)]
        simp only [M.bind_apply, handleError_eq]
        split
        · simp
        · simp
  | valid t q msg =>
    obtain ⟨ok, v, e1, e2⟩ := extractAt_spec (t := t) hl h1 h2
    simp only [reqCheck, e2]
    simp only [extractOne, M.get_bind, hv, Bool.not_true, Bool.false_eq_true, if_false, Req.dflt]
    rw [M.bind_of_ok e1]
    cases ok with
    | true =>
      cases hq : q v with
      | true => simp [hq]
      | false =>
        simp only [if_true, hq, Bool.false_eq_true, if_false, Bool.not_true, Bool.not_false]
        rw [M.bind_of_ok (show textOf p s = .ok _ s from rfl)]
        simp only [M.bind_apply, handleError_eq]
        split
        · simp
        · simp
    | false =>
      simp only [Bool.not_false, if_true, Bool.false_eq_true, if_false]
      rw [M.bind_of_ok (show textOf p s = .ok _ s from rfl)]
      simp only [M.bind_apply, handleError_eq]
      split
      · simp
      · simp

theorem reqCheck_msg_ne {r : Req} {i : Nat} {s m : Bytes} (h : reqCheck r i s = .error m) : m ≠ [] := by
  have := reqCheck_error.mp h
  cases this <;> simp [bs]

theorem extractMultiple_spec {c : Cfg} {elems : List (Nat × Nat)} : ∀ {rs : List Req} {i : Nat} {s : Conv}
    {ss : List Bytes}, s.err.valid c.mode = true → (s.spl.gen = s.spl.lineGen ∨ elems = []) → ss.length = rs.length →
    (∀ k, k < rs.length → ∃ j p, columnPosition (i + k) s = .ok j s ∧ elems[j]? = some p ∧
      p.1 ≤ p.2 ∧ p.2 < s.spl.mem.length ∧ ss[k]? = some (textAt s.spl.mem p.1 p.2)) →
    ErrSet c s (extractMultiple c elems rs i s) (rowCols rs i ss)
  | [], i, s, ss, _, _, _, _ => rfl
  | r :: rs, i, s, [], _, _, h, _ => by simp at h
  | r :: rs, i, s, t :: ss, hv, hl, hlen, hk => by
    have hk' : ∀ k, k < rs.length → ∃ j p, columnPosition (i + 1 + k) s = .ok j s ∧ elems[j]? = some p ∧
        p.1 ≤ p.2 ∧ p.2 < s.spl.mem.length ∧ ss[k]? = some (textAt s.spl.mem p.1 p.2) := by
      intro k h
      obtain ⟨j, p, a⟩ := hk (k + 1) (by simp; omega)
      refine ⟨j, p, ?_⟩
      rw [show i + 1 + k = i + (k + 1) by omega]
      simpa using a
    have ih := extractMultiple_spec (rs := rs) (i := i + 1) (ss := ss) (elems := elems) hv hl (by simpa using hlen) hk'
    obtain ⟨j, p, h1, h2, h3, h4, h5⟩ := hk 0 (by simp)
    simp only [Nat.add_zero, List.getElem?_cons_zero, Option.some.injEq] at h1 h5
    have hE : elemAt elems j s = .ok p s := by simp [elemAt, h2]
    by_cases hr : r = .void
    · subst hr
      unfold extractMultiple rowCols
      simp only [reqCheck]
      revert ih
      cases rowCols rs (i + 1) ss with
      | error m => exact id
      | ok vs => simp [ErrSet]
    · have hx : extractMultiple c elems (r :: rs) i s =
          (extractOne c r p i r.dflt >>= fun v => extractMultiple c elems rs (i + 1) >>= fun vs => pure (v :: vs)) s := by
        cases r with
        | void => exact absurd rfl hr
        | ty t => simp only [extractMultiple]; rw [M.bind_of_ok h1, M.bind_of_ok hE]
        | valid t q msg => simp only [extractMultiple]; rw [M.bind_of_ok h1, M.bind_of_ok hE]
      rw [hx]
      have hl' : s.spl.gen = s.spl.lineGen := by
        rcases hl with hl | hl
        · exact hl
        · rw [hl] at h2; simp at h2
      have h1' := extractOne_spec (c := c) (i := i) hr hv hl' h3 h4
      rw [← h5] at h1'
      simp only [rowCols]
      cases hc : reqCheck r i t with
      | ok ov =>
        rw [hc] at h1'
        cases ov with
        | none => exact h1'.elim
        | some v =>
          simp only at h1'
          rw [M.bind_of_ok h1']
          revert ih
          cases rowCols rs (i + 1) ss with
          | error m =>
            simp only [ErrSet]
            split
            · intro h; rw [M.bind_of_exc h]
            · rintro ⟨vs, h⟩; rw [M.bind_of_ok h]; exact ⟨_, rfl⟩
          | ok vs => simp only [ErrSet]; intro h; rw [M.bind_of_ok h]; rfl
      | error m =>
        rw [hc] at h1'
        simp only [ErrSet]
        by_cases hm : c.mode = .throw
        · simp only [hm, if_true] at h1' ⊢
          rw [M.bind_of_exc h1']
        · simp only [hm, if_false] at h1' ⊢
          obtain ⟨v, h1'⟩ := h1'
          rw [M.bind_of_ok h1']
          obtain ⟨vs, hvs⟩ := extractMultiple_invalid (c := c) (elems := elems) (rs := rs) (i := i + 1)
            (s := { s with err := s.err.set c.mode m }) (ErrSt.valid_set hm (reqCheck_msg_ne hc) _) (by
              intro k a b
              obtain ⟨j, p, a1, a2, _⟩ := hk' (k - (i + 1)) (by omega)
              rw [show i + 1 + (k - (i + 1)) = k by omega] at a1
              refine ⟨j, p, ?_, a2⟩
              revert a1
              simp only [columnPosition]
              split
              · intro h; cases h; rfl
              · split
                · intro h; cases h; rfl
                · intro h; cases h)
          rw [M.bind_of_ok hvs]
          exact ⟨_, rfl⟩

theorem columns_getElem? (s : Spl) (i : Nat) : s.columns[i]? = (s.data[i]?).map fun p => textAt s.mem p.1 p.2 := by
  simp [Spl.columns, textAt]

/-- `convert_impl` on a valid split. -/
theorem convertImpl_spec {c : Cfg} {rs : List Req} {s : Conv} (hr : Readable s.spl) (hsel : s.SelOk)
    (hv : s.spl.err.valid c.mode = true) :
    ErrSet c { s with err := s.err.clear c.mode } (convertImpl c rs s.spl.data s)
      (rowResult rs s.mappings s.ncols s.spl.columns) := by
  have hcl : s.spl.columns.length = s.spl.data.length := by simp [Spl.columns]
  have key : ∀ m, ErrSet c { s with err := s.err.clear c.mode }
      ((handleError c m >>= fun _ => pure (defaults rs)) { s with err := s.err.clear c.mode }) (.error m) := by
    intro m
    simp only [ErrSet, M.bind_apply, handleError_eq]
    split
    · rfl
    · exact ⟨_, rfl⟩
  have hc : convertImpl c rs s.spl.data s = (if s.mappings = [] then
      if rs.length ≠ s.spl.data.length then
        handleError c (msgNumberOfColumns rs.length s.spl.data.length) >>= fun _ => pure (defaults rs)
      else extractMultiple c s.spl.data rs 0
    else if rs.length ≠ s.mappings.length then
      handleError c (msgIncompatibleMapping rs.length s.mappings.length) >>= fun _ => pure (defaults rs)
    else if s.spl.data.length ≠ s.ncols then
      handleError c (msgNumberOfColumns s.ncols s.spl.data.length) >>= fun _ => pure (defaults rs)
    else extractMultiple c s.spl.data rs 0) { s with err := s.err.clear c.mode } := by
    unfold convertImpl
    rw [M.bind_of_ok (show clearError c s = .ok () { s with err := s.err.clear c.mode } from rfl)]
    simp only [M.get_bind, hv, Bool.not_true, Bool.false_eq_true, if_false]
  rw [hc]
  unfold rowResult
  rw [hcl]
  by_cases hm : s.mappings = []
  · rw [if_pos hm, if_pos hm]
    by_cases hl : rs.length = s.spl.data.length
    · simp only [hl, ne_eq, not_true_eq_false, if_false]
      refine extractMultiple_spec (ErrSt.valid_clear _ _) hr.live (by simp [hcl, hl]) ?_
      intro k hk
      have hk' : k < s.spl.data.length := by omega
      refine ⟨k, s.spl.data[k], by simp [columnPosition, hm], by simp, ?_⟩
      have := hr.inside _ (List.getElem_mem hk')
      refine ⟨this.1, this.2, ?_⟩
      rw [columns_getElem?, List.getElem?_eq_getElem hk']; rfl
    · simp only [ne_eq, hl, not_false_eq_true, if_true]
      exact key _
  · simp only [hm, if_false]
    by_cases hl : rs.length = s.mappings.length
    · simp only [hl, ne_eq, not_true_eq_false, if_false]
      by_cases hn : s.spl.data.length = s.ncols
      · simp only [hn, not_true_eq_false, if_false]
        refine extractMultiple_spec (ErrSt.valid_clear _ _) hr.live (by simp [selCols, hm, hl]) ?_
        intro k hk
        have hk' : k < s.mappings.length := by omega
        have hj := hsel _ (List.getElem_mem hk')
        have hj' : s.mappings[k] < s.spl.data.length := by omega
        refine ⟨s.mappings[k], s.spl.data[s.mappings[k]], ?_, by simp, ?_⟩
        · simp [columnPosition, hm, List.getElem?_eq_getElem hk']
        · have := hr.inside _ (List.getElem_mem hj')
          refine ⟨this.1, this.2, ?_⟩
          simp only [selCols, hm, if_false, List.getElem?_map, List.getElem?_eq_getElem hk', Option.map_some]
          rw [columns_getElem?, List.getElem?_eq_getElem hj']; rfl
      · simp only [hn, not_false_eq_true, if_true]
        exact key _
    · simp only [ne_eq, hl, not_false_eq_true, if_true]
      exact key _

end Conv
end Ssp
