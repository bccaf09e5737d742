import Verif.Props.ParserChain
import Verif.Props.ParserMultiline
/-!
# Substitute conversions of rows of several lines (C41, C37)
-/
namespace Ssp
open Spec

section
variable {x : Ctx} {s : Parser}

/-- what a complete row yields -/
theorem row_yields (hx : x.MlOk) {t : Mach} (hp : PRel x s t) {k : Nat} (hk : x.RowTo t.line k) {res : Except Bytes (List Bytes)}
    (h : if cutNul (x.joined t.line k) = [] then
        res = (if t.rd.next.serr.valid x.cfg.mode = false then .error t.rd.next.serr.msg else .ok [])
      else ∃ N, (k = 0 → N = (cutNul (x.joined t.line k)).length) ∧ res = textRes x N (cutNul (x.joined t.line k)))
    {rs : List Req} (hrs : rs ≠ []) (vs : List Val) :
    rowOf rs t.rd.sel t.rd.ncols res = .ok vs ↔ Ssp.Yields x.cfg (s.fresh x rs (x.joined t.line k)) vs := by
  have hopen : (decodeRow x.cfg x.delim (cutNul (x.joined t.line k))).2.isOpenQuote = false := by
    cases hd : (decodeRow x.cfg x.delim (cutNul (x.joined t.line k))).2 with
    | openQuote a => exact absurd (.inr ⟨a, hd⟩) hk.stops
    | _ => rfl
  have hf := Parser.fresh_closed hx.ok hp rs hopen
  by_cases ht : cutNul (x.joined t.line k) = []
  · rw [if_pos ht] at h
    obtain ⟨m0, hm0⟩ := rowOf_nil hrs hp.base.selok
    have hspl : splitRes x.cfg x.delim (cutNul (x.joined t.line k)) = .ok [] := by simp [splitRes, ht]
    rw [hspl, hm0] at hf
    simp only at hf
    have hres : ∃ m, rowOf rs t.rd.sel t.rd.ncols res = .error m := by
      rw [h]
      split
      · exact ⟨_, rfl⟩
      · exact ⟨m0, hm0⟩
    obtain ⟨m, hm⟩ := hres
    rw [hm]
    exact ⟨fun h => (by cases h), fun h => absurd h (fails_not_yields hf)⟩
  · rw [if_neg ht] at h
    obtain ⟨N, hN, h⟩ := h
    have hspl : splitRes x.cfg x.delim (cutNul (x.joined t.line k)) = textRes x (cutNul (x.joined t.line k)).length (cutNul (x.joined t.line k)) := by
      simp only [splitRes, ht, if_false, textRes]; rfl
    rw [hspl] at hf
    rw [h]
    cases hen : endError x.cfg N (decodeRow x.cfg x.delim (cutNul (x.joined t.line k))).2 with
    | none =>
      have hen' : endError x.cfg (cutNul (x.joined t.line k)).length (decodeRow x.cfg x.delim (cutNul (x.joined t.line k))).2 = none := by
        rw [endError_none_iff (n := 0)] at hen ⊢; exact hen
      simp only [textRes, hen, hen'] at hf ⊢
      cases hres : rowOf rs t.rd.sel t.rd.ncols (.ok (decodeRow x.cfg x.delim (cutNul (x.joined t.line k))).1) with
      | ok ws =>
        rw [hres] at hf
        exact ⟨fun h => by cases h; exact hf, fun h => by rw [yields_unique hf h]⟩
      | error m =>
        rw [hres] at hf
        exact ⟨fun h => (by cases h), fun h => absurd h (fails_not_yields hf)⟩
    | some m =>
      obtain ⟨m1, hen'⟩ : ∃ m1, endError x.cfg (cutNul (x.joined t.line k)).length (decodeRow x.cfg x.delim (cutNul (x.joined t.line k))).2 = some m1 := by
        cases hen' : endError x.cfg (cutNul (x.joined t.line k)).length (decodeRow x.cfg x.delim (cutNul (x.joined t.line k))).2 with
        | some m1 => exact ⟨m1, rfl⟩
        | none =>
          rw [endError_none_iff (n := 0)] at hen'
          rw [(endError_none_iff (n := 0)).mpr hen'] at hen
          cases hen
      simp only [textRes, hen, hen', rowOf] at hf ⊢
      exact ⟨fun h => (by cases h), fun h => absurd h (fails_not_yields hf)⟩

/-- C41, with multiline: at any time of a life in which `or_else` followed complete rows only, when the next row is complete
and made of the lines `s.line` to `s.line + k`: in `try_next(a).or_else(...)...` the optional of an alternative holds `vs`
exactly if this alternative converts the text of the whole row to `vs`, its callback accepts them, and no earlier
alternative suits; a callback is called exactly if its alternative converts the row and no earlier one suits; `valid()`
holds afterwards exactly if one optional is engaged; and exactly this row is consumed. -/
theorem C41_first_that_suits_multiline (hx : x.MlOk) (hth : x.cfg.mode ≠ .throw) (h : Parser.ReachT x s) {k : Nat}
    (hk : x.RowTo s.line k) {a : Parser.Alt} {as : List Parser.Alt} (hne : ∀ b ∈ a :: as, b.reqs ≠ []) :
    ∃ o s' outs, Parser.step x (.chain a as) s = some (o, s') ∧ o.ret = .opts outs ∧ outs.length = as.length + 1 ∧
      (∀ (i : Nat) (b : Parser.Alt), (a :: as)[i]? = some b → ∃ out, outs[i]? = some out ∧
        (∀ vs, out.1 = some vs ↔ b.Suits x s (x.joined s.line k) vs ∧
          ∀ (j : Nat) (b' : Parser.Alt), j < i → (a :: as)[j]? = some b' → ∀ vs', ¬ b'.Suits x s (x.joined s.line k) vs') ∧
        (out.2 = true ↔ (b.fn.isSome = true ∧ ∃ vs, b.Converts x s (x.joined s.line k) vs) ∧
          ∀ (j : Nat) (b' : Parser.Alt), j < i → (a :: as)[j]? = some b' → ∀ vs', ¬ b'.Suits x s (x.joined s.line k) vs')) ∧
      (o.valid = true ↔ ∃ out ∈ outs, out.1.isSome = true) ∧
      x.rest s'.line = x.rest (s.line + k + 1) ∧ s'.eof = (x.rest (s.line + k + 1)).isEmpty ∧ s.line + k + 1 ≤ s'.line ∧
      (x.cfg.ignoreEmpty = false → s'.line = s.line + k + 1) ∧ (∀ l, s'.converter l = s.converter l) ∧
      Parser.ReachT x s' := by
  obtain ⟨t, hp, hi, _⟩ := h.sim hx.live
  have hT : (Op.chain a as).Tame x s.line s.eof := fun _ _ _ _ => .inr (.inr ⟨hx, k, hk⟩)
  obtain ⟨o, o', s', t'', h1, h2, h3, h4, h5⟩ := step_simT hx.live (.chain a as) hT hp hi
  have hreach := h.step hT h1
  clear hT
  unfold Parser.Alt.Suits Parser.Alt.Converts
  rw [hp.line] at hk ⊢
  have he : t.eof = false := by
    cases he : t.eof with
    | false => rfl
    | true =>
      have hin := hk.inside
      have hlen : (lines x.src.data).length = (rawLines x.src.data).length := by simp [lines]
      rw [hlen, Mach.line_eq] at hin
      rcases (hi.over he).2 with ⟨h1, h2, _⟩ | h1
      · rw [h2] at hin; simp [rawLines] at hin
      · have := h1.ln; omega
  obtain ⟨res, a1, hpres, hkep, hv1, hln1, hrow⟩ := parse_row hx hi he hk
  obtain ⟨e, c', n', t', hsp, hi', hc, hv⟩ := tryChain_gen hth a as he hpres hkep.base (fun m hm => hpres.serr hth hv1 hm)
  rw [hkep.sel, hkep.ncols] at hc hv
  generalize hf : (fun b : Parser.Alt => rowOf b.reqs t.rd.sel t.rd.ncols res) = f at hc hv
  have hy : ∀ b ∈ a :: as, ∀ vs, f b = .ok vs ↔ b.Converts x s (x.joined t.line k) vs := by
    intro b hb vs
    rw [← hf]
    exact row_yields hx hp hk hrow (hne b hb) vs
  have hsu : ∀ b ∈ a :: as, ∀ vs, (f b = .ok vs ∧ b.accepts vs = true) ↔ b.Suits x s (x.joined t.line k) vs := by
    intro b hb vs
    rw [hy b hb, accepts_iff]
    rfl
  have h6 : Mach.step x (.chain a as) t = some (Mach.observe x (.opts (chainOut f (a :: as))) t', t') := by
    unfold Mach.step Op.mexec
    simp only [M.get_bind, he, Bool.false_eq_true, if_false]
    rw [M.bind_of_ok hc]
    rfl
  rw [h6] at h2
  cases h2
  have hrest := (hkep.base.slots c' n').rest_read (t.readFrom x e { a1 with cur := c', next := n' }) rfl
  obtain ⟨_, _, _, _, _, r6, r7, _, r9⟩ := (hkep.base.slots c' n').read
  have hro : rowsOf x.cfg.ignoreEmpty ({ a1 with cur := c', next := n' } : MRd).todo = x.rest (t.line + k + 1) := by
    show rowsOf _ a1.todo = _
    rw [rest_eq, hkep.base.todo, hln1]
  rw [hro] at hrest
  have hline : t''.line = (t.readFrom x e { a1 with cur := c', next := n' }).line := by
    rw [Mach.line_eq, Mach.line_eq, hsp.ln]
  refine ⟨o, s', _, h1, h5.ret, by rw [chainOut_length]; rfl, ?_, ?_, ?_, ?_, ?_, ?_, ?_, hreach⟩
  · intro i b hb
    obtain ⟨out, g1, g2, g3⟩ := chainOut_at (res := f) (a :: as) i b hb
    have hb' := List.mem_of_getElem? hb
    have hpre : (∀ (j : Nat) (b' : Parser.Alt), j < i → (a :: as)[j]? = some b' → ∀ vs', ¬ (f b' = .ok vs' ∧ b'.accepts vs' = true)) ↔
        ∀ (j : Nat) (b' : Parser.Alt), j < i → (a :: as)[j]? = some b' → ∀ vs', ¬ b'.Suits x s (x.joined t.line k) vs' := by
      constructor
      · intro h j b' hj hb' vs'
        rw [← hsu b' (List.mem_of_getElem? hb')]; exact h j b' hj hb' vs'
      · intro h j b' hj hb' vs'
        rw [hsu b' (List.mem_of_getElem? hb')]; exact h j b' hj hb' vs'
    refine ⟨out, g1, fun vs => ?_, ?_⟩
    · rw [g2 vs, hsu b hb', hpre]; rfl
    · rw [g3, hpre]
      simp only [hy b hb']; rfl
  · rw [h5.valid]
    show Mach.valid x.cfg t'' = true ↔ _
    rw [hv]
    simp only [List.any_eq_true]
  · rw [h3.line, hline, hrest.1]
  · rw [h3.eof, hsp.eof]
    show (!(MRd.readR x { a1 with cur := c', next := n' }).1) = _
    rw [hrest.2]; simp
  · rw [h3.line, hline]
    have : a1.ln < (t.readFrom x e { a1 with cur := c', next := n' }).rd.ln := r9
    rw [Mach.line_eq (t.readFrom x e _)]
    omega
  · intro hie
    rw [h3.line, hline]
    have : (t.readFrom x e { a1 with cur := c', next := n' }).rd.ln = a1.ln + 1 := readR_ln hie
    rw [Mach.line_eq (t.readFrom x e _), this]
    omega
  · intro l
    unfold Parser.converter
    rw [h3.base.cur.sel, h3.base.cur.ncols, hp.base.cur.sel, hp.base.cur.ncols, hsp.sel, hsp.ncols]
    have e1 : (t.readFrom x e { a1 with cur := c', next := n' }).rd.sel = a1.sel := r6
    have e2 : (t.readFrom x e { a1 with cur := c', next := n' }).rd.ncols = a1.ncols := r7
    rw [e1, e2, hkep.sel, hkep.ncols]

end

/-- C41, with multiline: so at most one optional is engaged. -/
theorem C41_at_most_one_multiline {x : Ctx} {s : Parser} (hx : x.MlOk) (hth : x.cfg.mode ≠ .throw) (h : Parser.ReachT x s) {k : Nat}
    (hk : x.RowTo s.line k) {a : Parser.Alt} {as : List Parser.Alt} (hne : ∀ b ∈ a :: as, b.reqs ≠ [])
    {o : Obs} {s' : Parser} {outs : List (Option (List Val) × Bool)} (hst : Parser.step x (.chain a as) s = some (o, s'))
    (ho : o.ret = .opts outs) {i j : Nat} {vi vj : List Val} {bi bj : Bool} (h1 : outs[i]? = some (some vi, bi))
    (h2 : outs[j]? = some (some vj, bj)) : i = j := by
  obtain ⟨o', s1, outs', e1, e2, e3, e4, _⟩ := C41_first_that_suits_multiline hx hth h hk hne
  rw [hst] at e1
  cases e1
  rw [ho] at e2
  cases e2
  have key : ∀ {i j : Nat} {vi vj : List Val} {bi bj : Bool}, outs[i]? = some (some vi, bi) → outs[j]? = some (some vj, bj) →
      i < j → False := by
    intro i j vi vj bi bj h1 h2 hlt
    have hj : j < (a :: as).length := by
      have : j < outs.length := by
        false_or_by_contra
        rw [List.getElem?_eq_none (by omega)] at h2; cases h2
      rw [e3] at this; exact this
    obtain ⟨outi, a1, a2, _⟩ := e4 i _ (List.getElem?_eq_getElem (show i < (a :: as).length by omega))
    obtain ⟨outj, b1, b2, _⟩ := e4 j _ (List.getElem?_eq_getElem hj)
    rw [h1] at a1; cases a1
    rw [h2] at b1; cases b1
    exact ((b2 vj).mp rfl).2 i _ hlt (List.getElem?_eq_getElem (by omega)) vi ((a2 vi).mp rfl).1
  rcases Nat.lt_trichotomy i j with hlt | heq | hlt
  · exact (key h1 h2 hlt).elim
  · exact heq
  · exact (key h2 h1 hlt).elim

/-! ## C54: inputs whose rows are complete -/

section
variable {x : Ctx} {s : Parser}

/-- what stays true when the rows of a well-formed input are read -/
structure Tidy (x : Ctx) (s : Parser) : Prop where
  reach : Parser.ReachT x s
  eof : s.eof = (x.rest s.line).isEmpty
  rows : x.AllComplete s.line

theorem Tidy.next (hx : x.MlOk) (h : Tidy x s) (hr : x.rest s.line ≠ []) : ∃ k, x.RowTo s.line k ∧ x.AllComplete (s.line + k + 1) := by
  obtain ⟨L, hL⟩ := h.rows
  have hs := starts_here hx.live h.reach hr
  cases L with
  | nil => cases hL with | done hn => exact absurd hs (hn _)
  | cons t L =>
    cases hL with
    | text h1 h2 h3 => cases hs.unique h1; exact ⟨_, h2, L, h3⟩

theorem Tidy.after (h : Parser.ReachT x s) {n : Nat} (ha : x.AllComplete n) (hle : n ≤ s.line) (hr : x.rest s.line = x.rest n)
    (he : s.eof = (x.rest n).isEmpty) : Tidy x s := by
  obtain ⟨L, hL⟩ := ha
  exact ⟨h, by rw [hr]; exact he, L, mlRows_same hle hr.symm hL⟩

theorem Tidy.step (hx : x.MlOk) (hth : x.cfg.mode ≠ .throw) (h : Tidy x s) {op : Op} (ho : op.Reads) :
    op.Tame x s.line s.eof ∧ ∀ o s', Parser.step x op s = some (o, s') → Tidy x s' := by
  have hT : op.Tame x s.line s.eof := by
    intro _ a as _
    cases he : s.eof with
    | true => exact .inr (.inl rfl)
    | false =>
      refine .inr (.inr ⟨hx, ?_⟩)
      have hr : x.rest s.line ≠ [] := by intro hr; rw [h.eof, hr] at he; simp at he
      obtain ⟨k, hk, _⟩ := h.next hx hr
      exact ⟨k, hk⟩
  refine ⟨hT, fun o s' hst => ?_⟩
  have hreach := h.reach.step hT hst
  have hquery : ∀ {α : Type} {m : M Mach α} {r : α → Ret}, op.mexec x = (m >>= fun v => pure (r v)) →
      (∀ t, Post (HdrSame t) (m t)) → Tidy x s' := by
    intro α m r hop hpost
    obtain ⟨t, hp, hi, _⟩ := h.reach.sim hx.live
    obtain ⟨o1, o', s1, t', h1, h2, h3, h4, _⟩ := step_simT hx.live op hT hp hi
    rw [hst] at h1
    cases h1
    have hsame : HdrSame t t' := by
      have hq := hpost t
      unfold Mach.step at h2
      rw [hop] at h2
      cases hm : m t with
      | ok v t1 => rw [hm] at hq; rw [M.bind_of_ok hm] at h2; cases h2; exact hq
      | exc e t1 => rw [hm] at hq; rw [M.bind_of_exc hm] at h2; cases h2; exact hq
      | ub => rw [hm] at hq; exact hq.elim
      | nofuel => rw [hm] at hq; exact hq.elim
    have hline : s'.line = s.line := by rw [h3.line, hp.line, Mach.line_eq, Mach.line_eq, hsame.rd]
    have heof : s'.eof = s.eof := by rw [h3.eof, hp.eof, hsame.eof]
    exact ⟨hreach, by rw [hline, heof]; exact h.eof, by rw [hline]; exact h.rows⟩
  cases op with
  | getNext rs =>
    by_cases hr : x.rest s.line = []
    · obtain ⟨s1, _, _, h3, h4, h5⟩ := over_coreM hx.ok hx.ml h.reach ho hr
      obtain ⟨o1, h6, _⟩ := step_of_error h3
      rw [hst] at h6
      cases h6
      exact ⟨hreach, by rw [h5, h4]; rfl, [], .done fun m hm => not_starts h5 m hm⟩
    · obtain ⟨k, s1, res, h1, h2, h3, h4, _, _, _, hcase⟩ := multi_core hx h.reach ho hr
      obtain ⟨k', hk', hc⟩ := h.next hx hr
      have hstep := h1.step
      rw [hst] at hstep
      cases hstep
      rcases hcase with ⟨hk, _⟩ | ⟨hk, _⟩ | ⟨hk, _⟩
      · cases hk.unique hk'
        exact .after hreach hc h4 h2 h3
      · exact (hk'.not_tooLong hk).elim
      · exact (hk'.not_open hk).elim
  | chain a as =>
    by_cases hr : x.rest s.line = []
    · have he : s.eof = true := by rw [h.eof, hr]; rfl
      have : Parser.step x (.chain a as) s = some (Parser.observe x (.opts []) s, s) := by
        unfold Parser.step Op.exec
        simp only [M.get_bind, he, if_true]
        rfl
      rw [hst] at this
      cases this
      exact h
    · obtain ⟨k, hk, hc⟩ := h.next hx hr
      obtain ⟨o1, s1, outs, h1, _, _, _, _, h2, h3, h4, _⟩ := C41_first_that_suits_multiline hx hth h.reach hk ho
      rw [hst] at h1
      cases h1
      exact .after hreach hc h4 h2 h3
  | header => exact hquery (r := .names) rfl (getHeader_post hx.ok)
  | rawHeader =>
    have : Parser.step x .rawHeader s = some (Parser.observe x (.names [s.rawHeader]) s, s) := rfl
    rw [hst] at this
    rw [(Prod.mk.inj (Option.some.inj this)).2]
    exact h
  | fieldExists f => exact hquery (r := .flag) rfl (fieldExists_post hx.ok f)
  | ignoreNext => exact ho.elim
  | useFields fs => exact ho.elim

theorem Tidy.covered (hx : x.MlOk) (hth : x.cfg.mode ≠ .throw) : ∀ {ops : List Op} {s : Parser}, Tidy x s → (∀ op ∈ ops, op.Reads) →
    Parser.Covered x ops s
  | [], _, _, _ => trivial
  | op :: _, _, h, ho =>
    have hs := h.step hx hth (ho op (by simp))
    ⟨hs.1, fun o s' hst => (hs.2 o s' hst).covered hx hth fun op h => ho op (by simp [h])⟩

/-- C54, with multiline and `or_else`: if all rows of the input are complete, then no sequence of `get_next`, `try_next` with
any `or_else`, `header`, `raw_header` and `field_exists` has undefined behaviour: every call comes back, and all of them are
covered by the statements about `Parser.ReachT` and `Parser.Covered`. -/
theorem C54_complete_input (hx : x.MlOk) (hth : x.cfg.mode ≠ .throw) (hi : x.cfg.ignoreHeader = false) (hc : x.AllComplete 0)
    (h : Parser.Created x s) {ops : List Op} (ho : ∀ op ∈ ops, op.Reads) :
    Parser.Covered x ops s ∧ ∃ os s', Parser.run x ops s = some (os, s') ∧ os.length = ops.length ∧ Parser.ReachT x s' := by
  obtain ⟨h1, h2, _⟩ := created_rest hx.live.good h
  have hrow : x.rows = x.rest 0 := by unfold Ctx.rows; simp [hi]
  rw [hrow] at h1
  have ht : Tidy x s := .after h.reachT hc (Nat.zero_le _) h1 h2
  have hcov := ht.covered hx hth ho
  obtain ⟨os, s', h3, h4⟩ := C54_calls_multiline_partial hx.ok h.reachT ops hcov
  exact ⟨hcov, os, s', h3, h4, h.reachT.run hcov h3⟩

end

/-! ## Examples -/

open Demo in
/-- alternatives for a row of three lines, and the row after it -/
example : (runs cm text [.getNext [str, num], .chain ⟨[num, num], none⟩ [⟨[str, num], some fun _ => some false⟩, ⟨[str, str], none⟩],
      .chain ⟨[num], none⟩ [⟨[str, num], none⟩]]).map (fun o => (o.ret, o.valid, o.line)) =
    [(.row (some [.str (bs "a"), .int 1]), true, 1),
     (.opts [(none, false), (none, true), (some [.str (bs "b\r\nc\n\""), .str (bs "2")], false)], true, 4),
     (.opts [(none, false), (some [.str (bs "e\nf"), .int 3], false)], true, 6)] := by
  decide +kernel

open Demo in
/-- an input with complete rows, one of two lines -/
theorem Demo.twoRows : (ctx cm "a,1\n\"b\nc\",2\n").MlRows 0 ([bs "a,1", bs "\"b\nc\",2"].map .text) := by
  have hj0 : (ctx cm "a,1\n\"b\nc\",2\n").joined 0 0 = bs "a,1" := by decide +kernel
  have hj1 : (ctx cm "a,1\n\"b\nc\",2\n").joined 1 0 = bs "\"b" := by decide +kernel
  have hj2 : (ctx cm "a,1\n\"b\nc\",2\n").joined 1 1 = bs "\"b\nc\",2" := by decide +kernel
  have hl : (lines (ctx cm "a,1\n\"b\nc\",2\n").src.data).length = 3 := by decide +kernel
  have hsmall : ∀ {n : Nat} {l : Bytes}, (lines (ctx cm "a,1\n\"b\nc\",2\n").src.data)[n]? = some l →
      (ctx cm "a,1\n\"b\nc\",2\n").Starts n n := fun h => ⟨Nat.le_refl _, ⟨_, h, by intro h; cases h⟩, by intro i h1 h2; omega⟩
  have hend : ∀ {t : Bytes}, (decodeRow cm (bs ",") (cutNul t)).2 = .eol → ¬ cm.Escaped t → ¬ (ctx cm "a,1\n\"b\nc\",2\n").GoesOn t := by
    rintro t h1 h2 (h | ⟨a, h⟩)
    · exact h2 h
    · have : (decodeRow cm (bs ",") (cutNul t)).2 = .openQuote a := h
      rw [h1] at this; cases this
  have r0 : (ctx cm "a,1\n\"b\nc\",2\n").RowTo 0 0 := by
    refine ⟨by rw [hl]; omega, ?_, by intro i hi; omega⟩
    rw [hj0]; exact hend (by decide +kernel) (by unfold Cfg.Escaped; decide +kernel)
  have r1 : (ctx cm "a,1\n\"b\nc\",2\n").RowTo 1 1 := by
    refine ⟨by rw [hl]; omega, ?_, ?_⟩
    · rw [hj2]; exact hend (by decide +kernel) (by unfold Cfg.Escaped; decide +kernel)
    · intro i hi
      have : i = 0 := by omega
      subst this
      rw [hj1]
      exact ⟨.inr ⟨bs "b", (by decide +kernel : (decodeRow cm (bs ",") (bs "\"b")).2 = .openQuote (bs "b"))⟩, by unfold Cfg.Limit; decide⟩
  have e : ([bs "a,1", bs "\"b\nc\",2"] : List Bytes).map MlRow.text = [.text ((ctx cm "a,1\n\"b\nc\",2\n").joined 0 0),
      .text ((ctx cm "a,1\n\"b\nc\",2\n").joined 1 1)] := by rw [hj0, hj2]; rfl
  rw [e]
  refine .text (hsmall (by decide +kernel : _ = some (bs "a,1"))) r0 (.text (hsmall (by decide +kernel : _ = some (bs "\"b"))) r1 (.done ?_))
  intro m hm
  have := hm.inside; have := hm.le
  omega

open Demo in
/-- `C54_complete_input` applies to any calls that read its rows -/
example (ops : List Op) (ho : ∀ op ∈ ops, op.Reads) :
    Parser.Covered (ctx cm "a,1\n\"b\nc\",2\n") ops (start cm "a,1\n\"b\nc\",2\n") := by
  have hn : NUL ∉ bs "a,1\n\"b\nc\",2\n" := by decide +kernel
  exact (C54_complete_input (cm_ok hn) (by decide) rfl ⟨[bs "a,1", bs "\"b\nc\",2"], twoRows⟩ (createdM cm_wf _) ho).1

open Demo in
/-- the hypotheses of `C41_first_that_suits_multiline` are met by that parser, after its first row -/
example : ∃ s, Parser.ReachT (ctx cm text) s ∧ (ctx cm text).MlOk ∧ (ctx cm text).RowTo s.line 2 ∧
    (Op.chain ⟨[num, num], none⟩ [⟨[str, num], none⟩]).Tame (ctx cm text) s.line s.eof := by
  obtain ⟨s, h1, h2, h3, _⟩ := at_long_row
  exact ⟨s, h1, h2, h3, fun _ _ _ _ => .inr (.inr ⟨h2, 2, h3⟩)⟩

namespace Demo
/-- multiline, without string_error -/
def cbm : Cfg := { cm with mode := .bool }
end Demo

open Demo in
/-- C41: `or_else` behind a row whose quote is open at the end of the input.  With string_error it is an error, as the row
itself; without, it is engaged with a text that is no column of that row, and the parser is valid. -/
theorem C41_or_else_after_open_row :
    (runs cm "1,2\nx,\"a" [.getNext [num, num], .chain ⟨[num], none⟩ [⟨[str, str], none⟩]]).map (fun o => (o.ret, o.valid)) =
      [(.row (some [.int 1, .int 2]), true), (.opts [(none, false), (none, false)], false)] ∧
    (runs cbm "1,2\nx,\"a" [.getNext [num, num], .chain ⟨[num], none⟩ [⟨[str, str], none⟩]]).map (fun o => (o.ret, o.valid)) =
      [(.row (some [.int 1, .int 2]), true), (.opts [(none, false), (some [.str (bs "x"), .str (bs "x,\"")], false)], true)] := by
  decide +kernel

end Ssp
