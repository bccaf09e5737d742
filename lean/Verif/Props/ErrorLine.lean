import Verif.Props.ParserMultiline
import Verif.Props.ParserChain
/-!
# C74: an error names the input and the line of its row
-/
namespace Ssp
open Spec

/-- The error `o` reports, seen in the light of `n`, the number (from 1) of the last line of the refused row. -/
structure Names (x : Ctx) (n : Nat) (o : Obs) : Prop where
  /-- `error_msg()` names the input and the line -/
  string : x.cfg.mode = .string → ∃ m, o.msg = x.at n m
  /-- an exception names the input and the value `line()` has then -/
  throw : x.cfg.mode = .throw → ∃ m, o.ret = .thrown (x.at o.line m)
  /-- which is the same line without `ignore_empty` -/
  exact : x.cfg.ignoreEmpty = false → o.line = n
  /-- and otherwise this one or a later one -/
  le : n ≤ o.line
  /-- with nothing but empty lines between -/
  skipped : ∀ i l, n ≤ i → i < o.line → (lines x.src.data)[i]? = some l → l = []

theorem rest_same_empty {x : Ctx} {n m : Nat} (hle : n ≤ m) (h : x.rest m = x.rest n) {i : Nat} {l : Bytes} (h1 : n ≤ i) (h2 : i < m)
    (hl : (lines x.src.data)[i]? = some l) : l = [] := by
  unfold Ctx.rest at h
  have hsplit : (lines x.src.data).drop n = ((lines x.src.data).drop n).take (m - n) ++ (lines x.src.data).drop m := by
    conv => lhs; rw [← List.take_append_drop (m - n) ((lines x.src.data).drop n)]
    rw [List.drop_drop, show n + (m - n) = m by omega]
  rw [hsplit, List.filter_append] at h
  have h0 : (((lines x.src.data).drop n).take (m - n)).filter (fun l => !x.cfg.ignoreEmpty || !l.isEmpty) = [] := by
    have := congrArg List.length h
    rw [List.length_append] at this
    exact List.eq_nil_of_length_eq_zero (by omega)
  have hmem : l ∈ ((lines x.src.data).drop n).take (m - n) := by
    apply List.mem_of_getElem? (i := i - n)
    rw [List.getElem?_take_of_lt (by omega), List.getElem?_drop, show n + (i - n) = i by omega]
    exact hl
  have := List.filter_eq_nil_iff.mp h0 l hmem
  simp only [Bool.or_eq_true, Bool.not_eq_true', not_or, Bool.not_eq_false] at this
  exact List.isEmpty_iff.mp this.2

theorem names_of_out {x : Ctx} {n : Nat} {rs : List Req} {s s' : Parser} {m : Bytes} (h : RowOut x n (Parser.getNext x rs s) s' (.error m))
    (hle : n ≤ s'.line) (hex : x.cfg.ignoreEmpty = false → s'.line = n) (hr : x.rest s'.line = x.rest n) :
    Names x n (Parser.observe x (retOf x s' (.error m)) s') := by
  refine ⟨fun hs => ?_, fun ht => ⟨m, ?_⟩, hex, hle, fun i l h1 h2 h3 => rest_same_empty hle hr h1 h2 h3⟩
  · unfold RowOut at h
    simp only [hs, reduceCtorEq, if_false] at h
    obtain ⟨vs, _, _, h3⟩ := h
    exact ⟨m, h3 trivial⟩
  · show retOf x s' (.error m) = _
    unfold retOf
    simp only [ht, if_true]
    rfl

theorem refused_error {x : Ctx} {s' : Parser} {res : Except Bytes (List Val)} (h : NoRow (Parser.observe x (retOf x s' res) s')) :
    ∃ m, res = .error m := by
  cases res with
  | error m => exact ⟨m, rfl⟩
  | ok vs =>
    rcases h with ⟨h, _⟩ | ⟨m, h⟩ <;> cases h

section
variable {x : Ctx} {s : Parser}

/-- C74, without multiline: at any time, when `get_next` refuses the next row, the error names the input and the line of the row, which is the
one behind the `line()` lines read before the call.  The exception does so unless empty lines behind the row are skipped (`C47_line_number`): it names the last of them. -/
theorem C74_error_names_line (hx : x.Ok) (hm : x.cfg.multiline = false) (h : Parser.Reach x s) {rs : List Req} (hrs : rs ≠ [])
    (hr : x.rest s.line ≠ []) :
    ∃ o s', Parser.step x (.getNext rs) s = some (o, s') ∧ (NoRow o → Names x (s.line + 1) o) := by
  obtain ⟨l, ls, hls⟩ := List.exists_cons_of_ne_nil hr
  obtain ⟨s', res, h1, h2, _, h4, h5, _⟩ := row_core hx hm h hrs hls
  refine ⟨_, s', h1.step, fun hno => ?_⟩
  obtain ⟨m, rfl⟩ := refused_error hno
  refine names_of_out h1 h4 h5 ?_
  have hst := starts_here (hx.liveT) (Parser.Reach.tame hm h) hr
  obtain ⟨l', hl', hne⟩ := hst.row
  have hlt : s.line < (lines x.src.data).length := (List.getElem?_eq_some_iff.mp hl').1
  have : x.rest s.line = (lines x.src.data)[s.line] :: x.rest (s.line + 1) := by
    unfold Ctx.rest
    rw [List.drop_eq_getElem_cons hlt, List.filter_cons_of_pos]
    rw [List.getElem?_eq_getElem hlt] at hl'
    cases hie : x.cfg.ignoreEmpty with
    | false => rfl
    | true =>
      have := hne hie
      rw [Option.some.inj hl']
      cases l' with
      | nil => exact absurd rfl this
      | cons _ _ => rfl
  rw [this] at hls
  rw [h2, (List.cons.inj hls).2]

/-- The row that starts in line `n` is over with line `n + k`: it is complete, it has too many lines, or the input is over. -/
def Ctx.RowOver (x : Ctx) (n k : Nat) : Prop :=
  x.RowTo n k ∨ x.RowTooLong n k ∨ x.RowOpen n ∧ n + k + 1 = (lines x.src.data).length

/-- C74, with multiline: the error names the last line of the row. -/
theorem C74_error_names_line_multiline (hx : x.MlOk) (h : Parser.ReachT x s) {rs : List Req} (hrs : rs ≠ []) (hr : x.rest s.line ≠ []) :
    ∃ o s' k, Parser.step x (.getNext rs) s = some (o, s') ∧ x.RowOver s.line k ∧ (NoRow o → Names x (s.line + k + 1) o) := by
  obtain ⟨k, s', res, h1, h2, _, h4, h5, _, _, h6⟩ := multi_core hx h hrs hr
  refine ⟨_, s', k, h1.step, ?_, fun hno => ?_⟩
  · rcases h6 with ⟨h, _⟩ | ⟨h, _⟩ | ⟨h, h', _⟩
    · exact .inl h
    · exact .inr (.inl h)
    · exact .inr (.inr ⟨h, h'⟩)
  · obtain ⟨m, rfl⟩ := refused_error hno
    exact names_of_out h1 h4 h5 h2

end

/-! ## `or_else` -/

section
variable {x : Ctx}

theorem M.bind_inv {σ α β : Type} {m : M σ α} {f : α → M σ β} {s t : σ} {b : β} (h : (m >>= f) s = .ok b t) :
    ∃ a s1, m s = .ok a s1 ∧ f a s1 = .ok b t := by
  rw [M.bind_apply] at h
  cases hm : m s with
  | ok a s1 => rw [hm] at h; exact ⟨a, s1, rfl, h⟩
  | exc e s1 => rw [hm] at h; cases h
  | ub => rw [hm] at h; cases h
  | nofuel => rw [hm] at h; cases h

theorem onCur_keeps {α : Type} {m : M Conv α} {s s' : Parser} {v : α} (h : Parser.onCur m s = .ok v s') :
    s'.err = s.err ∧ s'.rd.lineNumber = s.rd.lineNumber := by
  unfold Parser.onCur at h
  cases hm : m s.rd.cur.conv with
  | ok a c => rw [hm] at h; cases h; exact ⟨rfl, rfl⟩
  | exc e c => rw [hm] at h; cases h
  | ub => rw [hm] at h; cases h
  | nofuel => rw [hm] at h; cases h

theorem trySame_names (hs : x.cfg.mode = .string) {rs : List Req} {s s' : Parser} {vs : List Val} (h : Parser.trySame x rs s = .ok vs s') :
    s'.valid x.cfg = true ∨ ∃ m, s'.err.msg = x.at s'.rd.lineNumber m := by
  unfold Parser.trySame at h
  obtain ⟨_, s1, h1, h⟩ := M.bind_inv h
  obtain ⟨v, s2, h2, h⟩ := M.bind_inv h
  rw [M.get_bind] at h
  obtain ⟨_, s3, h3, h⟩ := M.bind_inv h
  cases h
  obtain ⟨e1, _⟩ := onCur_keeps h2
  by_cases hv : Conv.valid x.cfg s2.rd.cur.conv = true
  · rw [if_pos hv] at h3
    cases h3
    left
    unfold Parser.clearError at h1
    cases h1
    unfold Parser.valid
    rw [e1, hs]
    rfl
  · rw [if_neg hv] at h3
    cases h3
    refine .inr ⟨s2.rd.cur.conv.err.msg, ?_⟩
    rw [hs]
    rfl

theorem tryInvoke_none {v : List Val} {fn : Option (List Val → Option Bool)} {s s' : Parser} (h : Parser.tryInvoke x v fn s = .ok false s') :
    s' = s := by
  unfold Parser.tryInvoke at h
  cases fn with
  | none => cases h; rfl
  | some f =>
    dsimp only at h
    cases hf : f v with
    | none => rw [hf] at h; cases h
    | some b =>
      rw [hf] at h
      cases b with
      | true => cases h
      | false => obtain ⟨_, _, _, h⟩ := M.bind_inv h; cases h

theorem orElse_names (hs : x.cfg.mode = .string) {a : Parser.Alt} {s s' : Parser} {r : Option (List Val) × Bool}
    (h : Parser.orElse x a s = .ok r s') (hv : s.valid x.cfg = false) (hv' : s'.valid x.cfg = false) (hc : r.2 = false) :
    ∃ m, s'.err.msg = x.at s'.rd.lineNumber m := by
  unfold Parser.orElse at h
  rw [M.get_bind, if_neg (by rw [hv]; decide)] at h
  obtain ⟨v, s1, h1, h⟩ := M.bind_inv h
  rw [M.get_bind] at h
  by_cases hb : s1.valid x.cfg = true
  · rw [if_pos hb] at h
    obtain ⟨c, s2, h2, h⟩ := M.bind_inv h
    rw [M.get_bind] at h
    cases h
    subst hc
    rw [tryInvoke_none h2, hb] at hv'
    cases hv'
  · rw [if_neg hb] at h
    cases h
    exact (trySame_names hs h1).resolve_left hb

theorem orElse_valid_parser {a : Parser.Alt} {s : Parser} (hv : s.valid x.cfg = true) : Parser.orElse x a s = .ok (none, false) s := by
  unfold Parser.orElse
  rw [M.get_bind, if_pos hv]
  rfl

theorem orElses_valid_parser : ∀ (as : List Parser.Alt) {s s' : Parser} {rs : List (Option (List Val) × Bool)}, s.valid x.cfg = true →
    Parser.orElses x as s = .ok rs s' → s' = s
  | [], _, _, _, _, h => by cases h; rfl
  | a :: as, s, s', rs, hv, h => by
    unfold Parser.orElses at h
    rw [M.bind_of_ok (orElse_valid_parser hv)] at h
    obtain ⟨r, s1, h1, h⟩ := M.bind_inv h
    cases h
    exact orElses_valid_parser as hv h1

theorem orElses_names (hs : x.cfg.mode = .string) : ∀ (as : List Parser.Alt) {s s' : Parser} {rs : List (Option (List Val) × Bool)},
    Parser.orElses x as s = .ok rs s' → s'.valid x.cfg = false → rs.getLast?.map (·.2) = some false →
    ∃ m, s'.err.msg = x.at s'.rd.lineNumber m
  | [], _, _, _, h, _, hl => by cases h; cases hl
  | [a], s, s', rs, h, hv', hl => by
    unfold Parser.orElses at h
    obtain ⟨r, s1, h1, h⟩ := M.bind_inv h
    obtain ⟨q, s2, h2, h⟩ := M.bind_inv h
    cases h2; cases h
    cases hv : s.valid x.cfg with
    | true => rw [orElse_valid_parser hv] at h1; cases h1; rw [hv] at hv'; cases hv'
    | false => exact orElse_names hs h1 hv hv' (by simpa using hl)
  | a :: b :: as, s, s', rs, h, hv', hl => by
    unfold Parser.orElses at h
    obtain ⟨r, s1, h1, h⟩ := M.bind_inv h
    obtain ⟨q, s2, h2, h⟩ := M.bind_inv h
    cases h
    refine orElses_names hs (b :: as) h2 hv' ?_
    have hq : q ≠ [] := by
      rintro rfl
      unfold Parser.orElses at h2
      obtain ⟨_, _, _, h3⟩ := M.bind_inv h2
      obtain ⟨_, _, _, h4⟩ := M.bind_inv h3
      cases h4
    rw [List.getLast?_cons_of_ne_nil hq] at hl
    exact hl

/-- C74, not so for `or_else`: whenever the last alternative of a chain was tried and the row does not suit it, the error names the line
*behind* the row: `line() + 1`, where `line()` counts the lines up to the row (and empty ones behind it that are skipped). -/
theorem C74_or_else_names_the_line_behind (hs : x.cfg.mode = .string) {a : Parser.Alt} {as : List Parser.Alt} {s s' : Parser} {o : Obs}
    {outs : List (Option (List Val) × Bool)} (h : Parser.step x (.chain a as) s = some (o, s')) (hr : o.ret = .opts outs) (hv : o.valid = false)
    (hlast : ∃ q, outs.drop 1 ≠ [] ∧ outs.getLast? = some (q, false)) (hl : o.line ≠ 0) :
    ∃ m, o.msg = x.at (o.line + 1) m := by
  unfold Parser.step at h
  cases he : (Op.chain a as).exec x s with
  | ok r s1 =>
    rw [he] at h
    cases h
    replace hr : r = .opts outs := hr
    subst hr
    unfold Op.exec at he
    simp only at he
    rw [M.get_bind] at he
    obtain ⟨q, h1, h2⟩ := hlast
    by_cases heof : s.eof = true
    · rw [if_pos heof] at he
      cases he
      exact absurd rfl h1
    · rw [if_neg heof] at he
      obtain ⟨l, s2, h3, h4⟩ := M.bind_inv he
      cases h4
      unfold Parser.tryChain at h3
      obtain ⟨r, s3, _, h3⟩ := M.bind_inv h3
      obtain ⟨rest, s4, h5, h6⟩ := M.bind_inv h3
      cases h6
      have hq : rest ≠ [] := h1
      rw [List.getLast?_cons_of_ne_nil hq] at h2
      obtain ⟨m, hm⟩ := orElses_names hs as h5 hv (by rw [h2]; rfl)
      refine ⟨m, ?_⟩
      show s'.err.msg = _
      rw [hm]
      have : s'.rd.lineNumber = (Parser.observe x (.opts (r :: rest)) s').line + 1 := by
        show _ = s'.line + 1
        replace hl : s'.line ≠ 0 := hl
        unfold Parser.line at hl ⊢
        split at hl <;> split <;> omega
      rw [this]
  | exc e s1 =>
    rw [he] at h
    cases h
    cases hr
  | ub => rw [he] at h; cases h
  | nofuel => rw [he] at h; cases h

end

/-! ## Examples -/

open Demo in
/-- the second row is refused: by `get_next` with its line, by `or_else` with the line behind it -/
theorem C74_or_else_line :
    (runs cs "a,1\nx,y\nb,2\n" [.getNext [str, num], .getNext [str, num]]).map (·.msg) =
      [[], bs "f 2: invalid conversion for parameter at column 2: 'y'"] ∧
    (runs cs "a,1\nx,y\nb,2\n" [.getNext [str, num], .chain ⟨[str, num], none⟩ [⟨[num, num], none⟩]]).map (fun o => (o.msg, o.line)) =
      [([], 1), (bs "f 3: invalid conversion for parameter at column 1: 'x'", 2)] := by
  decide +kernel

open Demo in
/-- the hypotheses of `C74_error_names_line` are met, and the row is refused -/
example : Parser.Reach (ctx cs "a,x\n") (start cs "a,x\n") ∧ (ctx cs "a,x\n").rest (start cs "a,x\n").line ≠ [] ∧
    (runs cs "a,x\n" [.getNext [str, num]]).map (fun o => (o.ret, o.valid)) = [(.row none, false)] :=
  ⟨(created cs_wf rfl _).reach, by decide +kernel, by decide +kernel⟩

open Demo in
/-- with multiline: a row of two lines is refused, its error names the second -/
example : (runs cm "a,1\n\"x\ny\",z\n" [.getNext [str, num], .getNext [str, num]]).map (·.msg) =
    [[], bs "f 3: invalid conversion for parameter at column 2: 'z'"] := by
  decide +kernel

end Ssp
