import Verif.Props.ParserRows
/-!
# Substitute conversions (C41)

`x.rest s.line` are the rows to come.  `b.Converts x s l vs`: a newly made converter (with the parser's column selection)
converts `l` to the values `vs` of the types of the alternative `b`; `b.Suits x s l vs`: and the callback, if there is one,
does not refuse them (`Verif.Spec.Parser`).  `try_next` does not compile with `throw_on_error`.
-/
namespace Ssp
open Spec

/-- what a chain of alternatives does, one by one -/
theorem chainOut_at {res : Parser.Alt → Except Bytes (List Val)} : ∀ (as : List Parser.Alt) (i : Nat) (b : Parser.Alt) ,
    as[i]? = some b → ∃ o, (chainOut res as)[i]? = some o ∧
      (∀ vs, o.1 = some vs ↔ (res b = .ok vs ∧ b.accepts vs = true) ∧
        ∀ (j : Nat) (b' : Parser.Alt), j < i → as[j]? = some b' → ∀ vs', ¬ (res b' = .ok vs' ∧ b'.accepts vs' = true)) ∧
      (o.2 = true ↔ (b.fn.isSome = true ∧ ∃ vs, res b = .ok vs) ∧
        ∀ (j : Nat) (b' : Parser.Alt), j < i → as[j]? = some b' → ∀ vs', ¬ (res b' = .ok vs' ∧ b'.accepts vs' = true)) := by
  intro as
  induction as with
  | nil => intro i b h; cases h
  | cons a as ih =>
    intro i b h
    unfold chainOut
    cases i with
    | zero =>
      cases h
      refine ⟨a.outcome (res a), rfl, ?_, ?_⟩
      · intro vs
        unfold Parser.Alt.outcome
        cases hr : res a with
        | error m => simp
        | ok ws =>
          simp only [Except.ok.injEq, Nat.not_lt_zero, false_implies, implies_true, and_true]
          split
          · rename_i hacc
            simp only [Option.some.injEq]
            constructor
            · rintro rfl; exact ⟨rfl, hacc⟩
            · exact fun h => h.1
          · rename_i hacc
            constructor
            · intro h; cases h
            · rintro ⟨rfl, h⟩; exact absurd h hacc
      · unfold Parser.Alt.outcome
        cases hr : res a with
        | error m => simp
        | ok ws => simp
    | succ i =>
      rw [List.getElem?_cons_succ] at h
      have hfirst : ∀ vs', (a.outcome (res a)).1 = some vs' ↔ res a = .ok vs' ∧ a.accepts vs' = true := by
        intro vs'
        unfold Parser.Alt.outcome
        cases hr : res a with
        | error m => simp
        | ok ws =>
          simp only [Except.ok.injEq]
          split
          · rename_i hacc
            simp only [Option.some.injEq]
            constructor
            · rintro rfl; exact ⟨rfl, hacc⟩
            · exact fun h => h.1
          · rename_i hacc
            constructor
            · intro h; cases h
            · rintro ⟨rfl, h⟩; exact absurd h hacc
      cases ho : (a.outcome (res a)).1 with
      | some ws =>
        obtain ⟨h1, h2⟩ := (hfirst ws).mp ho
        simp only [Option.isSome_some, if_true, List.getElem?_cons_succ, List.getElem?_map, h, Option.map_some]
        refine ⟨_, rfl, fun vs => ?_, ?_⟩
        · constructor
          · intro h; cases h
          · rintro ⟨_, h⟩; exact absurd ⟨h1, h2⟩ (h 0 a (Nat.succ_pos _) rfl ws)
        · constructor
          · intro h; cases h
          · rintro ⟨_, h⟩; exact absurd ⟨h1, h2⟩ (h 0 a (Nat.succ_pos _) rfl ws)
      | none =>
        simp only [Option.isSome_none, Bool.false_eq_true, if_false, List.getElem?_cons_succ]
        obtain ⟨o, h1, h2, h3⟩ := ih i b h
        have hpre : (∀ (j : Nat) (b' : Parser.Alt), j < i → as[j]? = some b' → ∀ vs', ¬ (res b' = .ok vs' ∧ b'.accepts vs' = true)) ↔
            ∀ (j : Nat) (b' : Parser.Alt), j < i + 1 → (a :: as)[j]? = some b' → ∀ vs', ¬ (res b' = .ok vs' ∧ b'.accepts vs' = true) := by
          constructor
          · intro h j b' hj hb' vs' hh
            cases j with
            | zero => cases hb'; rw [(hfirst vs').mpr hh] at ho; cases ho
            | succ j => exact h j b' (by omega) hb' vs' hh
          · intro h j b' hj hb'
            exact h (j + 1) b' (by omega) hb'
        rw [hpre] at h3
        exact ⟨o, h1, fun vs => by rw [h2 vs, hpre], h3⟩

theorem chainOut_length {res : Parser.Alt → Except Bytes (List Val)} : ∀ (as : List Parser.Alt),
    (chainOut res as).length = as.length := by
  intro as
  induction as with
  | nil => rfl
  | cons a as ih =>
    unfold chainOut
    split <;> simp [ih]

theorem accepts_iff {b : Parser.Alt} {vs : List Val} : b.accepts vs = true ↔ ∀ f, b.fn = some f → f vs ≠ some false := by
  unfold Parser.Alt.accepts
  cases b.fn with
  | none => simp
  | some f => simp

section
variable {x : Ctx} {s : Parser} {l : Bytes} {ls : List Bytes}

/-- C41: at any time, when `l` is the next row: in `try_next(a).or_else(...)...` with the alternatives `a :: as`, the
optional of an alternative holds `vs` exactly if this alternative converts the row to `vs`, its callback accepts them, and
no earlier alternative suits; a callback is called exactly if its alternative converts the row and no earlier one suits;
`valid()` holds afterwards exactly if one optional is engaged; and exactly one row is consumed. -/
theorem C41_first_that_suits (hx : x.Ok) (hm : x.cfg.multiline = false) (hth : x.cfg.mode ≠ .throw) (h : Parser.Reach x s)
    (hr : x.rest s.line = l :: ls) {a : Parser.Alt} {as : List Parser.Alt} (hne : ∀ b ∈ a :: as, b.reqs ≠ []) :
    ∃ o s' outs, Parser.step x (.chain a as) s = some (o, s') ∧ o.ret = .opts outs ∧ outs.length = as.length + 1 ∧
      (∀ (i : Nat) (b : Parser.Alt), (a :: as)[i]? = some b → ∃ out, outs[i]? = some out ∧
        (∀ vs, out.1 = some vs ↔ b.Suits x s l vs ∧
          ∀ (j : Nat) (b' : Parser.Alt), j < i → (a :: as)[j]? = some b' → ∀ vs', ¬ b'.Suits x s l vs') ∧
        (out.2 = true ↔ (b.fn.isSome = true ∧ ∃ vs, b.Converts x s l vs) ∧
          ∀ (j : Nat) (b' : Parser.Alt), j < i → (a :: as)[j]? = some b' → ∀ vs', ¬ b'.Suits x s l vs')) ∧
      (o.valid = true ↔ ∃ out ∈ outs, out.1.isSome = true) ∧
      x.rest s'.line = ls ∧ s'.eof = ls.isEmpty ∧ (x.cfg.ignoreEmpty = false → s'.line = s.line + 1) ∧
      ∀ k, s'.converter k = s.converter k := by
  obtain ⟨t, hp, hi, _⟩ := h.sim (hx.live hm)
  rw [hp.line] at hr
  obtain ⟨he, hh, hlook, htodo⟩ := hi.rest_here hr
  obtain ⟨t1, t', hn, hsp, hi', hc, hv⟩ := tryChain_spec hm hth a as hi he
  generalize hres : (fun b : Parser.Alt => rowOf b.reqs t.rd.sel t.rd.ncols (t.rd.rowRes x)) = res at hc hv
  have hy : ∀ b ∈ a :: as, ∀ vs, res b = .ok vs ↔ b.Converts x s l vs := by
    intro b hb vs
    rw [← hres]
    exact rowRes_yields hx hm hp (hne b hb) hlook vs
  have hsu : ∀ b ∈ a :: as, ∀ vs, (res b = .ok vs ∧ b.accepts vs = true) ↔ b.Suits x s l vs := by
    intro b hb vs
    rw [hy b hb, accepts_iff]
    rfl
  obtain ⟨o, o', s', t'', h1, h2, h3, h4, h5⟩ := step_sim (hx.live hm) (.chain a as) hp hi
  have h6 : Mach.step x (.chain a as) t = some (Mach.observe x (.opts (chainOut res (a :: as))) t', t') := by
    unfold Mach.step Op.mexec
    simp only [M.get_bind, he, Bool.false_eq_true, if_false]
    rw [M.bind_of_ok hc]
    rfl
  rw [h6] at h2
  cases h2
  obtain ⟨e, c', n', rfl⟩ := hn
  have hrest := (hi.base.slots c' n').rest_read (t.readFrom x e { t.rd with cur := c', next := n' }) rfl
  obtain ⟨_, _, _, _, _, r6, r7, _⟩ := (hi.base.slots c' n').read
  have hline : t'.line = (t.readFrom x e { t.rd with cur := c', next := n' }).line := by
    rw [Mach.line_eq, Mach.line_eq, hsp.ln]
  refine ⟨o, s', _, h1, h5.ret, by rw [chainOut_length]; rfl, ?_, ?_, ?_, ?_, ?_, ?_⟩
  · intro i b hb
    obtain ⟨out, g1, g2, g3⟩ := chainOut_at (res := res) (a :: as) i b hb
    have hb' := List.mem_of_getElem? hb
    have hpre : (∀ (j : Nat) (b' : Parser.Alt), j < i → (a :: as)[j]? = some b' → ∀ vs', ¬ (res b' = .ok vs' ∧ b'.accepts vs' = true)) ↔
        ∀ (j : Nat) (b' : Parser.Alt), j < i → (a :: as)[j]? = some b' → ∀ vs', ¬ b'.Suits x s l vs' := by
      constructor
      · intro h j b' hj hb' vs'
        rw [← hsu b' (List.mem_of_getElem? hb')]; exact h j b' hj hb' vs'
      · intro h j b' hj hb' vs'
        rw [hsu b' (List.mem_of_getElem? hb')]; exact h j b' hj hb' vs'
    refine ⟨out, g1, fun vs => ?_, ?_⟩
    · rw [g2 vs, hsu b hb', hpre]
    · rw [g3, hpre]
      simp only [hy b hb']
  · rw [h5.valid]
    show Mach.valid x.cfg t' = true ↔ _
    rw [hv]
    simp only [List.any_eq_true]
  · rw [h3.line, hline, hrest.1]
    exact htodo
  · rw [h3.eof, hsp.eof]
    show (!(MRd.readR x { t.rd with cur := c', next := n' }).1) = _
    rw [hrest.2]
    show (!!(rowsOf _ t.rd.todo).isEmpty) = _
    rw [htodo]; simp
  · intro hie
    rw [h3.line, hline, hp.line]
    have : (t.readFrom x e { t.rd with cur := c', next := n' }).rd.ln = t.rd.ln + 1 := readR_ln hie
    rw [Mach.line_eq, Mach.line_eq, this]
    have := hh.ln
    omega
  · intro k
    unfold Parser.converter
    rw [h3.base.cur.sel, h3.base.cur.ncols, hp.base.cur.sel, hp.base.cur.ncols, hsp.sel, hsp.ncols]
    have e1 : (t.readFrom x e { t.rd with cur := c', next := n' }).rd.sel = t.rd.sel := r6
    have e2 : (t.readFrom x e { t.rd with cur := c', next := n' }).rd.ncols = t.rd.ncols := r7
    rw [e1, e2]

/-- C41: so at most one optional is engaged. -/
theorem C41_at_most_one (hx : x.Ok) (hm : x.cfg.multiline = false) (hth : x.cfg.mode ≠ .throw) (h : Parser.Reach x s)
    (hr : x.rest s.line = l :: ls) {a : Parser.Alt} {as : List Parser.Alt} (hne : ∀ b ∈ a :: as, b.reqs ≠ [])
    {o : Obs} {s' : Parser} {outs : List (Option (List Val) × Bool)} (hst : Parser.step x (.chain a as) s = some (o, s'))
    (ho : o.ret = .opts outs) {i j : Nat} {vi vj : List Val} {bi bj : Bool} (h1 : outs[i]? = some (some vi, bi))
    (h2 : outs[j]? = some (some vj, bj)) : i = j := by
  obtain ⟨o', s1, outs', e1, e2, e3, e4, _⟩ := C41_first_that_suits hx hm hth h hr hne
  rw [hst] at e1
  cases e1
  rw [ho] at e2
  cases e2
  have key : ∀ {i j : Nat} {vi vj : List Val} {bi bj : Bool}, outs[i]? = some (some vi, bi) → outs[j]? = some (some vj, bj) →
      i < j → False := by
    intro i j vi vj bi bj h1 h2 hlt
    have hj : j < (a :: as).length := by
      have : j < outs.length := by
        false_or_by_contra
        rw [List.getElem?_eq_none (by omega)] at h2; cases h2
      rw [e3] at this; exact this
    obtain ⟨outi, a1, a2, _⟩ := e4 i _ (List.getElem?_eq_getElem (show i < (a :: as).length by omega))
    obtain ⟨outj, b1, b2, _⟩ := e4 j _ (List.getElem?_eq_getElem hj)
    rw [h1] at a1; cases a1
    rw [h2] at b1; cases b1
    exact ((b2 vj).mp rfl).2 i _ hlt (List.getElem?_eq_getElem (by omega)) vi ((a2 vi).mp rfl).1
  rcases Nat.lt_trichotomy i j with hlt | heq | hlt
  · exact (key h1 h2 hlt).elim
  · exact heq
  · exact (key h2 h1 hlt).elim

end

open Demo in
/-- alternatives at work: the first converts but its callback refuses, the second does not convert, the third is taken and
the fourth, which would also do, is left alone -/
example : (runs cs "1,2\nx,y\n" [.chain ⟨[num, num], some fun _ => some false⟩ [⟨[num], none⟩, ⟨[str, num], some fun _ => none⟩,
      ⟨[str, str], some fun _ => some true⟩], .chain ⟨[num, num], none⟩ [⟨[num, str], none⟩]]).map
      (fun o => (o.ret, o.valid, o.line, o.eof)) =
    [(.opts [(none, true), (none, false), (some [.str (bs "1"), .int 2], true), (none, false)], true, 1, false),
     (.opts [(none, false), (none, false)], false, 2, true)] := by
  decide +kernel

namespace Demo
/-- what a composite not guarded by `!eof()` gives after the calls `ops` -/
def unguarded (c : Cfg) (d : String) (ops : List Op) (a : Parser.Alt) (as : List Parser.Alt) :
    Option (Bool × Ret × Bool) :=
  match Parser.run (ctx c d) ops (start c d) with
  | some (_, s) =>
    match Parser.tryChain (ctx c d) a as s with
    | .ok outs s' => some (s.eof, .opts outs, s'.valid c)
    | _ => none
  | none => none
end Demo

open Demo in
/-- C41, found while proving `C41_first_that_suits`: at the end of the input `try_next` is an error, but a following
`or_else` converts what is left in an old buffer: here, behind the rows "a" and "b", it is engaged with a text (a NUL
byte) that never was a row, and the parser is valid. -/
theorem C41_at_end_of_input :
    unguarded cs "a\nb\n" [.getNext [str], .getNext [str]] ⟨[str], none⟩ [⟨[str], none⟩] =
      some (true, .opts [(none, false), (some [.str [NUL]], false)], true) := by
  decide +kernel

end Ssp
