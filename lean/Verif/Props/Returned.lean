import Verif.Spec.Returned
import Verif.Props.Convert
import Verif.Model.Parser
import Verif.Proofs.LineMore
/-!
# C22: what a failed conversion returns
-/
namespace Ssp
open Spec

mutual
theorem Ty.dflt_blank : ∀ t : Ty, Blank t t.dflt
  | .int _ => .int
  | .bool => .bool
  | .char => .char
  | .str => .str
  | .view => .view
  | .opt _ => .opt
  | .variant ts => by unfold Ty.dflt; exact dfltAlt_blank ts
  | .custom _ _ => .custom
theorem dfltAlt_blank : ∀ ts : List Ty, Blank (.variant ts) (dfltAlt ts)
  | [] => .noVariant
  | t :: _ => .variant (Ty.dflt_blank t)
end

theorem defaults_blanks : ∀ rs : List Req, Blanks rs (Conv.defaults rs)
  | [] => .nil
  | .void :: rs => .void (defaults_blanks rs)
  | .ty t :: rs => .ty t.dflt_blank (defaults_blanks rs)
  | .valid t _ _ :: rs => .valid t.dflt_blank (defaults_blanks rs)

/-- What the alternatives of a variant leave when none of them converts: nothing. -/
theorem extractVariant_false {mem : Bytes} {b e : Nat} {v dst : Val} : ∀ {ts : List Ty} {i : Nat},
    extractVariant mem b e ts i dst = some (false, v) → v = dst
  | [], _, h => by unfold extractVariant at h; cases h; rfl
  | t :: ts, i, h => by
    unfold extractVariant at h
    cases hx : extract mem b e t t.dflt with
    | none => rw [hx] at h; cases h
    | some r =>
      rw [hx] at h
      obtain ⟨ok, w⟩ := r
      cases ok with
      | true => cases h
      | false => exact extractVariant_false h

theorem extract_dropped {mem : Bytes} {b e : Nat} {v : Val} (h1 : b ≤ e) (h2 : e < mem.length) : ∀ {t : Ty},
    extract mem b e t t.dflt = some (false, v) → Dropped t (textAt mem b e) v
  | .int t, h => by
    unfold extract at h
    cases hx : toNum t (textAt mem b e) with
    | none => rw [hx] at h; cases h; exact .int
    | some n => rw [hx] at h; cases h
  | .bool, h => by
    have : v = .bool false := by
      unfold extract extractBool Ty.dflt at h
      revert h
      repeat' split
      all_goals simp
      all_goals exact fun h => h.symm
    rw [this]; exact .bool
  | .char, h => by
    unfold extract at h
    have hb : b < mem.length := by omega
    rw [List.getElem?_eq_getElem hb] at h
    simp only [Option.some.injEq, Prod.mk.injEq] at h
    rw [← h.2]
    by_cases he : b = e
    · have : textAt mem b e = [] := by simp [textAt, he]
      rw [this]; exact .empty
    · have : textAt mem b e = mem[b] :: textAt mem (b + 1) e := by
        unfold textAt
        rw [List.drop_eq_getElem_cons hb, show e - b = (e - (b + 1)) + 1 by omega, List.take_succ_cons]
      rw [this]; exact .char
  | .str, h => by unfold extract at h; cases h
  | .view, h => by unfold extract at h; cases h
  | .opt t, h => by
    unfold extract at h
    cases hx : extract mem b e t t.dflt with
    | none => rw [hx] at h; cases h
    | some r => rw [hx] at h; obtain ⟨ok, w⟩ := r; cases ok <;> cases h
  | .variant ts, h => by
    unfold extract at h
    rw [extractVariant_false h]
    exact .variant (Ty.dflt_blank _)
  | .custom d f, h => by
    unfold extract at h
    simp only [Option.some.injEq] at h
    have : v = (f (textAt mem b e) d).2 := by rw [show d = (Ty.custom d f).dflt from rfl, h]
    rw [this]; exact .custom

namespace Conv

theorem extractMultiple_unset {c : Cfg} {elems : List (Nat × Nat)} : ∀ {rs : List Req} {i : Nat} {s s' : Conv} {vs : List Val},
    s.err.valid c.mode = false → extractMultiple c elems rs i s = .ok vs s' → vs = defaults rs
  | [], i, s, s', vs, _, h => by unfold extractMultiple at h; cases h; rfl
  | r :: rs, i, s, s', vs, hv, h => by
    by_cases hr : r = .void
    · subst hr
      unfold extractMultiple at h
      exact extractMultiple_unset (rs := rs) hv h
    · have hx : extractMultiple c elems (r :: rs) i s = (columnPosition i >>= fun k => elemAt elems k >>= fun p =>
          extractOne c r p i r.dflt >>= fun v => extractMultiple c elems rs (i + 1) >>= fun vs => pure (v :: vs)) s := by
        cases r with
        | void => exact absurd rfl hr
        | ty t => rfl
        | valid t q msg => rfl
      rw [hx] at h
      obtain ⟨k, s1, h1, hA⟩ := bind_ok_inv h
      have e1 : s1 = s := by
        unfold columnPosition at h1
        revert h1; split
        · intro h; cases h; rfl
        · split
          · intro h; cases h; rfl
          · intro h; cases h
      subst e1
      obtain ⟨p, s2, h2, hB⟩ := bind_ok_inv hA
      have e2 : s2 = s1 := by
        unfold elemAt at h2
        revert h2; split
        · intro h; cases h; rfl
        · intro h; cases h
      subst e2
      rw [M.bind_of_ok (extractOne_invalid hv)] at hB
      obtain ⟨ws, s3, h3, hC⟩ := bind_ok_inv hB
      cases hC
      rw [extractMultiple_unset hv h3]
      cases r with
      | void => exact absurd rfl hr
      | ty t => rfl
      | valid t q msg => rfl

/-- What a refused column leaves in the returned tuple. -/
theorem extractOne_left {c : Cfg} {r : Req} {p : Nat × Nat} {i : Nat} {s s' : Conv} {v : Val} {m : Bytes}
    (hv : s.err.valid c.mode = true) (hl : s.spl.gen = s.spl.lineGen) (h1 : p.1 ≤ p.2) (h2 : p.2 < s.spl.mem.length)
    (hc : reqCheck r i (textAt s.spl.mem p.1 p.2) = .error m) (h : extractOne c r p i r.dflt s = .ok v s') :
    Refused r (textAt s.spl.mem p.1 p.2) v := by
  have ext : ∀ t, ∃ ok w, extractAt t p t.dflt s = .ok (ok, w) s ∧ extract s.spl.mem p.1 p.2 t t.dflt = some (ok, w) ∧
      conv t (textAt s.spl.mem p.1 p.2) = if ok then some w else none := by
    intro t
    obtain ⟨ok, w, e1, e2⟩ := extractAt_spec (t := t) hl h1 h2
    refine ⟨ok, w, e1, ?_, e2⟩
    unfold extractAt at e1
    rw [if_neg (by simp only [hl, ne_eq, not_true_eq_false, false_or]; omega)] at e1
    cases hx : extract s.spl.mem p.1 p.2 t t.dflt with
    | none => rw [hx] at e1; cases e1
    | some r => rw [hx] at e1; cases e1; rfl
  have bad : ∀ (t : Ty) (w : Val) (st : Conv), (textOf p >>= fun text => handleError c (msgInvalidConversion text i) >>= fun _ =>
      pure w) st = .ok v s' → v = w := by
    intro t w st h
    rw [M.bind_of_ok (show textOf p st = .ok _ st from rfl)] at h
    obtain ⟨_, _, _, h⟩ := bind_ok_inv h
    cases h; rfl
  cases r with
  | void => simp [reqCheck] at hc
  | ty t =>
    obtain ⟨ok, w, e1, e2, e3⟩ := ext t
    simp only [reqCheck, e3] at hc
    cases ok with
    | true => simp at hc
    | false =>
      have hs : t ≠ .str := by rintro rfl; simp [extract] at e2
      have hx : extractOne c (.ty t) p i (Req.ty t).dflt s = (extractAt t p t.dflt >>= fun r =>
          if !r.1 then textOf p >>= fun text => handleError c (msgInvalidConversion text i) >>= fun _ => pure r.2
          else pure r.2) s := by
        simp only [extractOne, M.get_bind, hv, Bool.not_true, Bool.false_eq_true, if_false, Req.dflt]
      rw [hx, M.bind_of_ok e1] at h
      simp only [Bool.not_false, if_true] at h
      rw [bad t _ _ h]
      exact .ty (by simpa using e3) (extract_dropped h1 h2 e2)
  | valid t q msg =>
    obtain ⟨ok, w, e1, e2, e3⟩ := ext t
    simp only [reqCheck, e3] at hc
    simp only [extractOne, M.get_bind, hv, Bool.not_true, Bool.false_eq_true, if_false, Req.dflt] at h
    rw [M.bind_of_ok e1] at h
    cases ok with
    | false =>
      simp only [Bool.not_false, if_true] at h
      rw [bad t _ _ h]
      exact .conv (by simpa using e3) (extract_dropped h1 h2 e2)
    | true =>
      cases hq : q w with
      | true => simp [hq] at hc
      | false =>
        simp only [hq, Bool.not_true, Bool.not_false, Bool.false_eq_true, if_false, if_true] at h
        rw [M.bind_of_ok (show textOf p s = .ok _ s from rfl)] at h
        obtain ⟨_, _, _, h⟩ := bind_ok_inv h
        cases h
        exact .valid (by simpa using e3) hq

theorem extractMultiple_left {c : Cfg} {elems : List (Nat × Nat)} : ∀ {rs : List Req} {i : Nat} {s s' : Conv}
    {ss : List Bytes} {m : Bytes} {vs : List Val}, s.err.valid c.mode = true → (s.spl.gen = s.spl.lineGen ∨ elems = []) →
    ss.length = rs.length →
    (∀ k, k < rs.length → ∃ j p, columnPosition (i + k) s = .ok j s ∧ elems[j]? = some p ∧
      p.1 ≤ p.2 ∧ p.2 < s.spl.mem.length ∧ ss[k]? = some (textAt s.spl.mem p.1 p.2)) →
    rowCols rs i ss = .error m → extractMultiple c elems rs i s = .ok vs s' → Returned rs ss vs
  | [], i, s, s', ss, m, vs, _, _, _, _, hm, _ => by unfold rowCols at hm; cases hm
  | r :: rs, i, s, s', [], m, vs, _, _, h, _, _, _ => by simp at h
  | r :: rs, i, s, s', t :: ss, m, vs, hv, hl, hlen, hk, hm, h => by
    have hk' : ∀ k, k < rs.length → ∃ j p, columnPosition (i + 1 + k) s = .ok j s ∧ elems[j]? = some p ∧
        p.1 ≤ p.2 ∧ p.2 < s.spl.mem.length ∧ ss[k]? = some (textAt s.spl.mem p.1 p.2) := by
      intro k h
      obtain ⟨j, p, a⟩ := hk (k + 1) (by simp; omega)
      refine ⟨j, p, ?_⟩
      rw [show i + 1 + k = i + (k + 1) by omega]
      simpa using a
    have ih := fun {m vs} => extractMultiple_left (c := c) (rs := rs) (i := i + 1) (s := s) (s' := s') (ss := ss) (m := m)
      (vs := vs) (elems := elems) hv hl (by simpa using hlen) hk'
    obtain ⟨j, p, h1, h2, h3, h4, h5⟩ := hk 0 (by simp)
    simp only [Nat.add_zero, List.getElem?_cons_zero, Option.some.injEq] at h1 h5
    have hE : elemAt elems j s = .ok p s := by simp [elemAt, h2]
    by_cases hr : r = .void
    · subst hr
      unfold extractMultiple at h
      unfold rowCols at hm
      simp only [reqCheck] at hm
      cases hc : rowCols rs (i + 1) ss with
      | ok vs => rw [hc] at hm; cases hm
      | error m' => exact .later (ov := none) .void (ih hc h)
    · have hx : extractMultiple c elems (r :: rs) i s =
          (extractOne c r p i r.dflt >>= fun v => extractMultiple c elems rs (i + 1) >>= fun vs => pure (v :: vs)) s := by
        cases r with
        | void => exact absurd rfl hr
        | ty t => simp only [extractMultiple]; rw [M.bind_of_ok h1, M.bind_of_ok hE]
        | valid t q msg => simp only [extractMultiple]; rw [M.bind_of_ok h1, M.bind_of_ok hE]
      rw [hx] at h
      have hl' : s.spl.gen = s.spl.lineGen := by
        rcases hl with hl | hl
        · exact hl
        · rw [hl] at h2; simp at h2
      have h1' := extractOne_spec (c := c) (i := i) hr hv hl' h3 h4
      have h6 := fun {m s' v} => extractOne_left (c := c) (r := r) (i := i) (m := m) (s' := s') (v := v) hv hl' h3 h4
      rw [← h5] at h1' h6
      simp only [rowCols] at hm
      cases hc : reqCheck r i t with
      | ok ov =>
        rw [hc] at h1' hm
        cases ov with
        | none => exact h1'.elim
        | some v =>
          simp only at h1' hm
          rw [M.bind_of_ok h1'] at h
          obtain ⟨ws, s3, h3, h⟩ := bind_ok_inv h
          cases h
          cases hc' : rowCols rs (i + 1) ss with
          | ok vs => rw [hc'] at hm; cases hm
          | error m' => exact .later (ov := some v) (reqCheck_ok.mp hc) (ih hc' h3)
      | error m' =>
        rw [hc] at h1'
        simp only at h1'
        by_cases ht : c.mode = .throw
        · rw [if_pos ht] at h1'
          rw [M.bind_of_exc h1'] at h; cases h
        · rw [if_neg ht] at h1'
          obtain ⟨v, h1'⟩ := h1'
          rw [M.bind_of_ok h1'] at h
          obtain ⟨ws, s3, h3, h⟩ := bind_ok_inv h
          cases h
          rw [extractMultiple_unset (ErrSt.valid_set ht (reqCheck_msg_ne hc) _) h3]
          exact .here (h6 hc h1') (defaults_blanks rs)

theorem convertImpl_left {c : Cfg} {rs : List Req} {s s' : Conv} {vs : List Val} {m : Bytes} (hr : Readable s.spl)
    (hsel : s.SelOk) (hv : s.spl.err.valid c.mode = true) (hf : Fits rs s.mappings s.ncols s.spl.columns)
    (hm : rowCols rs 0 (selCols s.mappings s.spl.columns) = .error m) (h : convertImpl c rs s.spl.data s = .ok vs s') :
    Returned rs (selCols s.mappings s.spl.columns) vs := by
  have hcl : s.spl.columns.length = s.spl.data.length := by simp [Spl.columns]
  unfold convertImpl at h
  rw [M.bind_of_ok (show clearError c s = .ok () { s with err := s.err.clear c.mode } from rfl)] at h
  simp only [M.get_bind, hv, Bool.not_true, Bool.false_eq_true, if_false] at h
  unfold Fits at hf
  rw [hcl] at hf
  by_cases hmm : s.mappings = []
  · rw [if_pos hmm] at h hf
    rw [if_neg (by simpa using hf)] at h
    refine extractMultiple_left (s := { s with err := s.err.clear c.mode }) (ErrSt.valid_clear _ _) hr.live
      (by simp [selCols, hmm, hcl, hf]) ?_ hm h
    intro k hk
    have hk' : k < s.spl.data.length := by omega
    refine ⟨k, s.spl.data[k], by simp [columnPosition, hmm], by simp, ?_⟩
    have := hr.inside _ (List.getElem_mem hk')
    refine ⟨this.1, this.2, ?_⟩
    rw [show selCols s.mappings s.spl.columns = s.spl.columns by simp [selCols, hmm], columns_getElem?,
      List.getElem?_eq_getElem hk']; rfl
  · rw [if_neg hmm] at h hf
    obtain ⟨hn, hk⟩ := hf
    rw [if_neg (by simpa using hn), if_neg (by simpa using hk)] at h
    refine extractMultiple_left (s := { s with err := s.err.clear c.mode }) (ErrSt.valid_clear _ _) hr.live
      (by simp [selCols, hmm, hn]) ?_ hm h
    intro k hk2
    have hk' : k < s.mappings.length := by omega
    have hj := hsel _ (List.getElem_mem hk')
    have hj' : s.mappings[k] < s.spl.data.length := by omega
    refine ⟨s.mappings[k], s.spl.data[s.mappings[k]], ?_, by simp, ?_⟩
    · simp [columnPosition, hmm, List.getElem?_eq_getElem hk']
    · have := hr.inside _ (List.getElem_mem hj')
      refine ⟨this.1, this.2, ?_⟩
      simp only [selCols, hmm, if_false, List.getElem?_map, List.getElem?_eq_getElem hk', Option.map_some,
        columns_getElem?, List.getElem?_eq_getElem hj']
      rfl

end Conv

/-- the columns picked by a selection -/
theorem selects_eq {sel : List Nat} {n : Nat} {cols ss : List Bytes} (hsel : ∀ i ∈ sel, i < n) (hn : sel ≠ [] → cols.length = n)
    (hs : Selects sel cols ss) : ss = selCols sel cols := by
  cases hs with
  | all => simp [selCols]
  | some hmm h5 h6 =>
    apply List.ext_getElem?
    intro k
    cases hk' : sel[k]? with
    | none =>
      have := List.getElem?_eq_none_iff.mp hk'
      rw [List.getElem?_eq_none (by omega), List.getElem?_eq_none (by simp [selCols, hmm]; omega)]
    | some i =>
      have hi' : i < cols.length := by rw [hn hmm]; exact hsel i (List.mem_of_getElem? hk')
      rw [h6 k i _ hk' (List.getElem?_eq_getElem hi')]
      simp [selCols, hmm, List.getElem?_map, hk', List.getElem?_eq_getElem hi']

section
variable {c : Cfg} {delim line T : Bytes} {s : Conv} (g : Given c delim line T s)
include g

/-- C22, the part that holds: when the split is rejected or the numbers do not fit, a returned tuple consists of
value initialised objects (with throw_on_error nothing is returned).

Partial: when the numbers fit and a column is rejected the earlier columns keep their converted values,
see `C22_failed_column_keeps_earlier_values` and, for what exactly is returned then, `C22_refused_column_partial`. -/
theorem C22_defaults_partial {rs : List Req} {vs : List Val} {s' : Conv}
    (h : Conv.convertLine c rs delim s = .ok vs s')
    (hbad : (∃ m, splitRes c delim line = .error m) ∨
      (Closed c delim line ∧ ∃ cols, splitRes c delim line = .ok cols ∧ ¬ Fits rs s.mappings s.ncols cols)) :
    Blanks rs vs := by
  rw [convert_defaults g h hbad]
  exact defaults_blanks rs

/-- C22, what is returned when a column is refused: the values of the columns before it, what the refused text leaves in
its place, and value initialised objects behind it. -/
theorem C22_refused_column_partial {rs : List Req} {cols ss : List Bytes} {m : Bytes} {vs : List Val} {s' : Conv}
    (hl : line ≠ []) (h : Accepts c (Spl.split c delim s.spl) cols) (hf : Fits rs s.mappings s.ncols cols)
    (hs : Selects s.mappings cols ss) (hm : FirstFault rs 0 ss m) (hr : Conv.convertLine c rs delim s = .ok vs s') :
    Returned rs ss vs := by
  obtain ⟨hres, hcl⟩ := line_of_accepts g.wf g.delim_ne g.delim_nul g.holds hl h
  obtain ⟨sp, hk, hsp⟩ := Conv.split_spec g.wf g.delim_ne g.delim_nul g.holds
  rw [hres] at hsp
  obtain ⟨h1, h2, h3, h4, _⟩ := hsp
  have h4 := h4 hcl
  rw [if_neg hl] at h3
  have hv : sp.err.valid c.mode = true := by rw [h3]; exact ErrSt.valid_clear _ _
  unfold Conv.convertLine at hr
  rw [M.bind_of_ok h1] at hr
  simp only [M.get_bind, hv, if_true] at hr
  have hss : ss = selCols s.mappings cols := selects_eq g.sel (fun h => by unfold Fits at hf; rw [if_neg h] at hf; exact hf.2) hs
  subst hss
  subst h4
  have hlen : rs.length = (selCols s.mappings sp.columns).length := by
    unfold Fits at hf
    by_cases hmm : s.mappings = []
    · rw [if_pos hmm] at hf; simpa [selCols, hmm] using hf
    · rw [if_neg hmm] at hf; simp [selCols, hmm, hf.1]
  exact Conv.convertImpl_left (s := { s with spl := sp }) h2 g.sel hv hf ((rowCols_error hlen).mpr hm) hr

end

/-- C22 is false of the code: `convert<int, int>("1,x")` is invalid but returns `(1, 0)`, not `(0, 0)`. -/
theorem C22_failed_column_keeps_earlier_values :
    ∃ s', Conv.convertLine {} [.ty (.int i32), .ty (.int i32)] (bs ",") { spl := { mem := bs "1,x" ++ [NUL] } } =
      .ok [.int 1, .int 0] s' ∧ Conv.valid {} s' = false := by
  obtain ⟨_, s', h, rfl, h2⟩ := Res.ok_of (r := Conv.convertLine {} [.ty (.int i32), .ty (.int i32)] (bs ",") { spl := { mem := bs "1,x" ++ [NUL] } })
    (P := fun vs s => vs = [.int 1, .int 0] ∧ Conv.valid {} s = false) (by decide +kernel)
  exact ⟨s', h, h2⟩

/-- C22 for a parser: at the end of the file `get_next` returns value initialised objects. -/
theorem C22_end_of_file {x : Ctx} {rs : List Req} {s s' : Parser} {vs : List Val} (he : s.eof = true)
    (h : Parser.getNext x rs s = .ok vs s') : Blanks rs vs := by
  have hd : vs = Conv.defaults rs := by
    unfold Parser.getNext at h
    rw [M.bind_of_ok (show Parser.parseRowIf x s = .ok () s by unfold Parser.parseRowIf; rw [if_pos he]),
      M.bind_of_ok (show Parser.onRd Reader.update s = .ok () _ from rfl)] at h
    simp only [M.get_bind] at h
    by_cases hv : Conv.valid x.cfg s.rd.next.conv = true
    · simp only [hv, Bool.not_true, Bool.false_eq_true, if_false, he, if_true] at h
      obtain ⟨_, _, _, h⟩ := bind_ok_inv h
      obtain ⟨_, _, _, h⟩ := bind_ok_inv h
      cases h; rfl
    · simp only [hv, Bool.not_false, if_true] at h
      obtain ⟨_, _, _, h⟩ := bind_ok_inv h
      obtain ⟨_, _, _, h⟩ := bind_ok_inv h
      cases h; rfl
  rw [hd]
  exact defaults_blanks rs

/-! ### the hypotheses are met -/

theorem split_on_returned : Accepts {} (Spl.split {} (bs ",") (convOn (bs "1,x,true,z")).spl) [bs "1", bs "x", bs "true", bs "z"] := by
  obtain ⟨_, s', h, h2⟩ := Res.ok_of (r := Spl.split {} (bs ",") (convOn (bs "1,x,true,z")).spl)
    (P := fun _ s => s.err.valid ({} : Cfg).mode = true ∧ s.columns = [bs "1", bs "x", bs "true", bs "z"] ∧ s.unterminatedQuote = false)
    (by decide +kernel)
  exact ⟨s', h, h2⟩

/-- `convert<int, int, bool, char>("1,x,true,z")` is `(1, 0, false, 0)` -/
example : ∃ s', Conv.convertLine {} [.ty (.int i32), .ty (.int i32), .ty .bool, .ty .char] (bs ",") (convOn (bs "1,x,true,z")) =
      .ok [.int 1, .int 0, .bool false, .char 0] s' ∧ Conv.valid {} s' = false ∧
    Returned [.ty (.int i32), .ty (.int i32), .ty .bool, .ty .char] [bs "1", bs "x", bs "true", bs "z"]
      [.int 1, .int 0, .bool false, .char 0] := by
  obtain ⟨_, s', h, rfl, h2⟩ := Res.ok_of (r := Conv.convertLine {} [.ty (.int i32), .ty (.int i32), .ty .bool, .ty .char] (bs ",")
      (convOn (bs "1,x,true,z")))
    (P := fun vs s => vs = [.int 1, .int 0, .bool false, .char 0] ∧ Conv.valid {} s = false) (by decide +kernel)
  refine ⟨s', h, h2, ?_⟩
  have h1 : conv (.int i32) (bs "1") = some (.int 1) := by decide +kernel
  have h3 : conv (.int i32) (bs "x") = none := by decide +kernel
  exact C22_refused_column_partial (given_on (c := {}) ⟨nofun, nofun, nofun, nofun, nofun, nofun, nofun, nofun, nofun, nofun⟩ (by decide)) (by decide) split_on_returned rfl .all
    (.later (.ty h1) (.here (Fault.ty (i := 1) h3))) h

/-- a value which a restriction refused is returned nevertheless -/
example : ∃ s', Conv.convertLine {} [(Restr.ir ⟨i32, 1⟩ ⟨i32, 9⟩).req i32] (bs ",") (convOn (bs "12")) = .ok [.int 12] s' ∧
    Conv.valid {} s' = false := by
  obtain ⟨_, s', h, rfl, h2⟩ := Res.ok_of (r := Conv.convertLine {} [(Restr.ir ⟨i32, 1⟩ ⟨i32, 9⟩).req i32] (bs ",") (convOn (bs "12")))
    (P := fun vs s => vs = [.int 12] ∧ Conv.valid {} s = false) (by decide +kernel)
  exact ⟨s', h, h2⟩

end Ssp
