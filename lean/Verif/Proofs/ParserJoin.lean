import Verif.Proofs.MachineChain
import Verif.Proofs.ParserLife
/-!
# One `get_next` of a reachable parser, with multiline
-/
namespace Ssp
open Spec

theorem Ctx.MlOk.live {x : Ctx} (h : x.MlOk) : x.LiveFor fun n e op => op.Tame x n e := h.ok.liveT

theorem Parser.fresh_closed {x : Ctx} (hx : x.Ok) {s : Parser} {t : Mach} (h : PRel x s t)
    (rs : List Req) {l : Bytes} (hc : (decodeRow x.cfg x.delim (cutNul l)).2.isOpenQuote = false) :
    match rowOf rs t.rd.sel t.rd.ncols (splitRes x.cfg x.delim (cutNul l)) with
    | .ok vs => Ssp.Yields x.cfg (s.fresh x rs l) vs
    | .error m => Ssp.Fails x.cfg (s.fresh x rs l) m := by
  obtain ⟨T, hT⟩ := cutNul_append_nul l []
  have hs : Holds (s.converter l).spl (cutNul l) T := ⟨hT, cutNul_nul _, rfl⟩
  have hsel : (s.converter l).SelOk := by
    show ∀ i ∈ s.rd.cur.conv.mappings, i < s.rd.cur.conv.ncols
    rw [h.base.cur.sel, h.base.cur.ncols]
    exact h.base.selok
  have hv : (s.converter l).spl.err.valid x.cfg.mode = true := by
    show ({} : ErrSt).valid _ = true
    cases x.cfg.mode <;> rfl
  have := Conv.convertLine_spec hx.wf (rs := rs) hx.delim hx.delim0 hs hsel (fun _ => hc) (fun _ => hv)
  have e1 : (s.converter l).mappings = t.rd.sel := h.base.cur.sel
  have e2 : (s.converter l).ncols = t.rd.ncols := h.base.cur.ncols
  rw [e1, e2] at this
  have e3 : Conv.lineRes x.cfg x.delim rs t.rd.sel t.rd.ncols (cutNul l) =
      rowOf rs t.rd.sel t.rd.ncols (splitRes x.cfg x.delim (cutNul l)) := by
    unfold Conv.lineRes rowOf
    cases splitRes x.cfg x.delim (cutNul l) <;> rfl
  rw [e3] at this
  exact this

theorem fails_unique {c : Cfg} {r : Res Conv (List Val)} {m m' : Bytes} (h : Ssp.Fails c r m) (h' : Ssp.Fails c r m')
    (hb : c.mode ≠ .bool) : m = m' := by
  unfold Ssp.Fails at h h'
  cases hmode : c.mode with
  | throw =>
    rw [hmode] at h h'
    obtain ⟨_, h1⟩ := h; obtain ⟨_, h2⟩ := h'
    rw [h1] at h2; cases h2; rfl
  | string =>
    rw [hmode] at h h'
    obtain ⟨_, _, h1, _, h3⟩ := h; obtain ⟨_, _, h2, _, h4⟩ := h'
    rw [h1] at h2; cases h2; rw [← h3, h4]
  | bool => exact absurd hmode hb

/-- One `get_next` at a row, with multiline. -/
theorem multi_core {x : Ctx} (hx : x.MlOk) {s : Parser} (h : Parser.ReachT x s) {rs : List Req}
    (hrs : rs ≠ []) (hr : x.rest s.line ≠ []) :
    ∃ k s' res, RowOut x (s.line + k + 1) (Parser.getNext x rs s) s' res ∧
      x.rest s'.line = x.rest (s.line + k + 1) ∧ s'.eof = (x.rest (s.line + k + 1)).isEmpty ∧
      s.line + k + 1 ≤ s'.line ∧ (x.cfg.ignoreEmpty = false → s'.line = s.line + k + 1) ∧
      (∀ l, s'.converter l = s.converter l) ∧ s'.rawHeader = s.rawHeader ∧
      ((x.RowTo s.line k ∧ (∀ vs, res = .ok vs ↔ Ssp.Yields x.cfg (s.fresh x rs (x.joined s.line k)) vs) ∧
        (∀ m, Ssp.Fails x.cfg (s.fresh x rs (x.joined s.line k)) m → cutNul (x.joined s.line k) ≠ [] ∨ x.cfg.mode ≠ .string →
          k = 0 ∨ (decodeRow x.cfg x.delim (cutNul (x.joined s.line k))).2.stringError true 0 = none →
          ∃ m', res = .error m' ∧ (x.cfg.mode ≠ .bool → m' = m))) ∨
       (x.RowTooLong s.line k ∧ res = .error Conv.msgMultilineLimit) ∨
       (x.RowOpen s.line ∧ s.line + k + 1 = (lines x.src.data).length ∧
        (x.cfg.Escaped (x.joined s.line k) ∧ res = .error Spl.msgUnterminatedEscape ∨
         ¬ x.cfg.Escaped (x.joined s.line k) ∧ res = .error Spl.msgUnterminatedQuote))) := by
  obtain ⟨t, hp, hi, _⟩ := h.sim hx.live
  rw [hp.line] at hr ⊢
  obtain ⟨l, ls, hls⟩ := List.exists_cons_of_ne_nil hr
  obtain ⟨he, hh, hlook, htodo⟩ := hi.rest_here hls
  have hln := hh.ln
  have hline : t.rd.ln - 1 = t.line := by rw [Mach.line_eq]
  have hj := hh.join hi.base
  rw [hline] at hj
  obtain ⟨res, a1, hpres, hend⟩ := parse_join hx.ok hx.clean hx.lf hx.ml hx.quotes hj (hi.clean he)
  obtain ⟨e, c', n', _, ho⟩ := getNext_of_parse (rs := rs) he hpres
  have hk : Kep x t.rd a1 := by rcases hend with ⟨m, _, h, _⟩ | ⟨h, _⟩ <;> exact h
  have hro' : rowOf rs a1.sel a1.ncols res = rowOf rs t.rd.sel t.rd.ncols res := by rw [hk.sel, hk.ncols]
  rw [hro'] at ho
  obtain ⟨k, hkln⟩ : ∃ k, a1.ln = t.line + k + 1 := by rcases hend with ⟨m, _, _, k, h, _⟩ | ⟨_, _, k, h, _⟩ <;> exact ⟨k, h⟩
  have huniq : ∀ k', a1.ln = t.line + k' + 1 → k' = k := fun k' h => by omega
  obtain ⟨r1, r2, r3, r4, r5, r6, r7, r8, r9⟩ := (hk.base.slots c' n').read
  have hrest := (hk.base.slots c' n').rest_read (t.readFrom x e { a1 with cur := c', next := n' }) rfl
  obtain ⟨s', hp', hout⟩ := getNext_parser hx.live.good hp ho
  rw [hkln] at hout
  have hro : rowsOf x.cfg.ignoreEmpty ({ a1 with cur := c', next := n' } : MRd).todo = x.rest (t.line + k + 1) := by
    show rowsOf _ a1.todo = _
    rw [rest_eq, hk.base.todo, hkln]
  rw [hro] at hrest
  refine ⟨k, s', rowOf rs t.rd.sel t.rd.ncols res, hout, ?_, ?_, ?_, ?_, ?_, ?_, ?_⟩
  · rw [hp'.line, hrest.1]
  · rw [hp'.eof]
    show (!(MRd.readR x { a1 with cur := c', next := n' }).1) = _
    rw [hrest.2]; simp
  · rw [hp'.line]
    have : a1.ln < (t.readFrom x e { a1 with cur := c', next := n' }).rd.ln := r9
    rw [Mach.line_eq (t.readFrom x e _)]
    omega
  · intro hie
    rw [hp'.line]
    have : (t.readFrom x e { a1 with cur := c', next := n' }).rd.ln = a1.ln + 1 := readR_ln hie
    rw [Mach.line_eq, this]
    omega
  · intro l
    unfold Parser.converter
    rw [hp'.base.cur.sel, hp'.base.cur.ncols, hp.base.cur.sel, hp.base.cur.ncols]
    have e1 : (t.readFrom x e { a1 with cur := c', next := n' }).rd.sel = a1.sel := r6
    have e2 : (t.readFrom x e { a1 with cur := c', next := n' }).rd.ncols = a1.ncols := r7
    rw [e1, e2, hk.sel, hk.ncols]
  · rw [hp'.rawHeader, hp.rawHeader]; rfl
  · rcases hend with ⟨m, rfl, _, k', h1, h2⟩ | ⟨_, _, k', h1, h2, h3⟩
    · cases huniq k' h1
      refine .inr ?_
      rcases h2 with ⟨h2, rfl⟩ | ⟨h2, h3, h4⟩
      · exact .inl ⟨h2, rfl⟩
      · refine .inr ⟨h2, by simpa [lines] using h3, ?_⟩
        rcases h4 with ⟨h4, rfl⟩ | ⟨h4, rfl⟩
        · exact .inl ⟨h4, rfl⟩
        · exact .inr ⟨h4, rfl⟩
    · cases huniq k' h1
      refine .inl ⟨h2, ?_⟩
      have hopen : (decodeRow x.cfg x.delim (cutNul (x.joined t.line k))).2.isOpenQuote = false := by
        cases hd : (decodeRow x.cfg x.delim (cutNul (x.joined t.line k))).2 with
        | openQuote a => exact absurd (.inr ⟨a, hd⟩) h2.stops
        | _ => rfl
      have hf := Parser.fresh_closed hx.ok hp rs hopen
      by_cases ht : cutNul (x.joined t.line k) = []
      · rw [if_pos ht] at h3
        obtain ⟨m0, hm0⟩ := rowOf_nil hrs hp.base.selok
        have hspl : splitRes x.cfg x.delim (cutNul (x.joined t.line k)) = .ok [] := by simp [splitRes, ht]
        rw [hspl, hm0] at hf
        simp only at hf
        have hres : ∃ m, rowOf rs t.rd.sel t.rd.ncols res = .error m ∧ (x.cfg.mode ≠ .string → x.cfg.mode ≠ .bool → m = m0) := by
          rw [h3]
          split
          · rename_i hs
            refine ⟨_, rfl, fun h1 h2 => ?_⟩
            cases hmode : x.cfg.mode with
            | throw => rw [hmode] at hs; simp [ErrSt.valid] at hs
            | string => exact absurd hmode h1
            | bool => exact absurd hmode h2
          · exact ⟨m0, hm0, fun _ _ => rfl⟩
        obtain ⟨m, hm, hm'⟩ := hres
        refine ⟨fun vs => ?_, fun m2 hm2 hne _ => ⟨m, hm, fun hb => ?_⟩⟩
        · rw [hm]
          constructor
          · intro h; cases h
          · intro h; exact absurd h (fails_not_yields hf)
        · rw [hm' (hne.resolve_left (fun h => h ht)) hb]
          exact fails_unique hf hm2 hb
      · rw [if_neg ht] at h3
        obtain ⟨N, hN, h3⟩ := h3
        have hspl : splitRes x.cfg x.delim (cutNul (x.joined t.line k)) = textRes x (cutNul (x.joined t.line k)).length (cutNul (x.joined t.line k)) := by
          simp only [splitRes, ht, if_false, textRes]; rfl
        rw [hspl] at hf
        rw [h3]
        cases hen : endError x.cfg N (decodeRow x.cfg x.delim (cutNul (x.joined t.line k))).2 with
        | none =>
          have hen' : endError x.cfg (cutNul (x.joined t.line k)).length (decodeRow x.cfg x.delim (cutNul (x.joined t.line k))).2 = none := by
            rw [endError_none_iff (n := 0)] at hen ⊢; exact hen
          simp only [textRes, hen, hen'] at hf ⊢
          cases hres : rowOf rs t.rd.sel t.rd.ncols (.ok (decodeRow x.cfg x.delim (cutNul (x.joined t.line k))).1) with
          | ok ws =>
            rw [hres] at hf
            refine ⟨fun vs => ⟨fun h => by cases h; exact hf, fun h => by rw [yields_unique hf h]⟩, fun m hm => absurd hf (fails_not_yields hm)⟩
          | error m =>
            rw [hres] at hf
            refine ⟨fun vs => ⟨fun h => (by cases h), fun h => absurd h (fails_not_yields hf)⟩, fun m2 hm2 _ _ => ⟨m, rfl, fun hb => fails_unique hf hm2 hb⟩⟩
        | some m =>
          obtain ⟨m1, hen'⟩ : ∃ m1, endError x.cfg (cutNul (x.joined t.line k)).length (decodeRow x.cfg x.delim (cutNul (x.joined t.line k))).2 = some m1 := by
            cases hen' : endError x.cfg (cutNul (x.joined t.line k)).length (decodeRow x.cfg x.delim (cutNul (x.joined t.line k))).2 with
            | some m1 => exact ⟨m1, rfl⟩
            | none =>
              rw [endError_none_iff (n := 0)] at hen'
              rw [(endError_none_iff (n := 0)).mpr hen'] at hen
              cases hen
          simp only [textRes, hen, hen', rowOf] at hf ⊢
          refine ⟨fun vs => ⟨fun h => (by cases h), fun h => absurd h (fails_not_yields hf)⟩, fun m2 hm2 _ h0 => ⟨m, rfl, fun hb => ?_⟩⟩
          rcases h0 with h0 | h0
          · rw [hN h0, hen'] at hen
            cases hen
            exact fails_unique hf hm2 hb
          · rw [(endError_none_iff (n := 0)).mpr (by rw [hx.ml]; exact h0)] at hen
            cases hen

/-- `parse` after the end of the input: nothing -/
theorem parse_over {x : Ctx} (hml : x.cfg.multiline = true) {a : MRd} (hb : MBase x a) (ho : MOver x a)
    (hv : a.next.err.valid x.cfg.mode = true) :
    ∃ res a1, PRes x a res a1 ∧ Kep x a a1 ∧ ((∃ m, res = .error m) ∨ res = .ok []) := by
  obtain ⟨res, a1, h1, h2⟩ := parse_res hml hb hv
  refine ⟨res, a1, h1, h2, ?_⟩
  cases res with
  | error m => exact .inl ⟨m, rfl⟩
  | ok cols =>
    right
    unfold PRes PResR MRd.parse at h1
    have htodo : a.todo = [] := by
      rw [hb.todo]; exact List.drop_eq_nil_of_le (Nat.le_of_lt ho.ln)
    rcases escapeLoopIf_tot hml [] 0 0 hb with ⟨l, a2, e1, e2, e3, e4⟩ | ⟨e1, e2⟩
    · have hlook : a2.look = a.look := by
        unfold MRd.escapeLoopIf at e1
        split at e1
        · have hbd : Reader.bound x = (Reader.bound x - 1) + 1 := by
            have := hb.todo_lt; omega
          rw [hbd] at e1
          unfold MRd.escapeLoop at e1
          simp only [M.get_bind] at e1
          split at e1
          · split at e1
            · exfalso
              rw [M.bind_apply] at e1
              cases hm : MRd.failLimit x.cfg a <;> rw [hm] at e1 <;> simp at e1
            · have hap : MRd.append a = .ok false { a with pos := a.off, tries := a.tries + 1, next := { a.next with cols := none } } := by
                simp [MRd.append, htodo]
              rw [M.bind_of_ok hap] at e1
              simp only [Bool.false_eq_true, if_false] at e1
              exfalso
              rw [M.bind_apply] at e1
              cases hm : MRd.failOpen x.cfg Spl.msgUnterminatedEscape { a with pos := a.off, tries := a.tries + 1, next := { a.next with cols := none } } <;>
                rw [hm] at e1 <;> simp at e1
          · cases e1; rfl
        · cases e1; rfl
      rw [M.bind_of_ok e1] at h1
      simp only [M.get_bind, hlook, ho.look] at h1
      rw [M.bind_of_ok (show MRd.splitText x.cfg x.delim [] a2 = .ok () _ from rfl)] at h1
      simp only [ne_eq, not_true_eq_false, and_false, if_false, M.pure_apply] at h1
      obtain ⟨h1, _, _, h2⟩ := h1
      cases h1
      cases h2; rfl
    · exfalso
      obtain ⟨h1, hv1, _⟩ := h1
      unfold Failing at e1
      cases hr : MRd.escapeLoopIf x [] 0 0 a with
      | ok w a2 =>
        rw [hr] at e1
        cases w with
        | some l => exact absurd hr (e2 l a2)
        | none =>
          rw [M.bind_of_ok hr] at h1
          cases h1
          rw [e1.2.2] at hv1; cases hv1
      | exc e a2 => rw [M.bind_of_exc hr] at h1; cases h1
      | ub => rw [hr] at e1; exact e1.elim
      | nofuel => rw [hr] at e1; exact e1.elim

/-- A `get_next` with no row left is an error, with multiline. -/
theorem over_coreM {x : Ctx} (hx : x.Ok) (hml : x.cfg.multiline = true) {s : Parser}
    (h : Parser.ReachT x s) {rs : List Req} (hrs : rs ≠ []) (hr : x.rest s.line = []) :
    ∃ s', (∀ vs, ¬ Parser.Yields x (Parser.getNext x rs s) vs) ∧ (∃ m, Parser.Fails x (Parser.getNext x rs s) m) ∧
      ((∃ e, Parser.getNext x rs s = .exc e s') ∨ ∃ vs, Parser.getNext x rs s = .ok vs s' ∧ s'.valid x.cfg = false) ∧
      s'.eof = true ∧ x.rest s'.line = [] := by
  have hl := hx.liveT
  obtain ⟨t, hp, hi, _⟩ := h.sim hl
  rw [hp.line] at hr
  refine over_machine hl.good hp hi hr (getNext_postM hml rs hi).1 fun he hov => ?_
  obtain ⟨res, a1, h1, h2, h3⟩ := parse_over hml hi.base hov (hi.clean he)
  obtain ⟨e, c', n', _, ho⟩ := getNext_of_parse (rs := rs) he h1
  have htodo : a1.todo = [] := by
    have := h2.fewer
    rw [hi.base.todo, List.drop_eq_nil_of_le (Nat.le_of_lt hov.ln)] at this
    simpa using this
  obtain ⟨m, hres⟩ : ∃ m, rowOf rs a1.sel a1.ncols res = .error m := by
    rw [h2.sel, h2.ncols]
    rcases h3 with ⟨m, rfl⟩ | rfl
    · exact ⟨m, rfl⟩
    · exact rowOf_nil hrs hp.base.selok
  rw [hres] at ho
  exact ⟨e, c', n', a1, _, m, h2.base, htodo, ho⟩

end Ssp
