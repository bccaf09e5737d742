import Verif.Proofs.MachineJoin
/-!
# `or_else` with multiline
-/
namespace Ssp
open Spec

/-! ### exactly one kind of row -/

theorem Ctx.RowTo.unique {x : Ctx} {n k k' : Nat} (h : x.RowTo n k) (h' : x.RowTo n k') : k = k' := by
  rcases Nat.lt_trichotomy k k' with hlt | heq | hlt
  · exact absurd (h'.before k hlt).1 h.stops
  · exact heq
  · exact absurd (h.before k' hlt).1 h'.stops

theorem Ctx.RowTooLong.unique {x : Ctx} {n k k' : Nat} (h : x.RowTooLong n k) (h' : x.RowTooLong n k') : k = k' := by
  rcases Nat.lt_trichotomy k k' with hlt | heq | hlt
  · exact absurd h.limit (h'.before k hlt).2
  · exact heq
  · exact absurd h'.limit (h.before k' hlt).2

theorem Ctx.RowTo.not_tooLong {x : Ctx} {n k k' : Nat} (h : x.RowTo n k) (h' : x.RowTooLong n k') : False := by
  rcases Nat.lt_trichotomy k k' with hlt | heq | hlt
  · exact h.stops (h'.before k hlt).1
  · subst heq; exact h.stops h'.goesOn
  · exact (h.before k' hlt).2 h'.limit

theorem Ctx.RowTo.not_open {x : Ctx} {n k : Nat} (h : x.RowTo n k) (h' : x.RowOpen n) : False := h.stops (h' k h.inside).1

theorem Ctx.RowTooLong.not_open {x : Ctx} {n k : Nat} (h : x.RowTooLong n k) (h' : x.RowOpen n) : False := (h' k h.inside).2 h.limit

/-- an error of the splitter -/
theorem PResR.serr {x : Ctx} {r : Res MRd Unit} {res : Except Bytes (List Bytes)} {a1 : MRd} (h : PResR x r res a1)
    (hth : x.cfg.mode ≠ .throw) (hv : a1.next.err.valid x.cfg.mode = true) {m : Bytes} (hm : res = .error m) :
    a1.next.serr.valid x.cfg.mode = false := by
  subst hm
  unfold PResR at h
  simp only [hth, if_false] at h
  rcases h.2 with h | h
  · rw [hv] at h; cases h.1
  · exact h.2.1

/-- `parse` of a complete row -/
theorem parse_row {x : Ctx} (hx : x.MlOk) {t : Mach} (h : MInv x t) (he : t.eof = false) {k : Nat} (hk : x.RowTo t.line k) :
    ∃ res a1, PRes x t.rd res a1 ∧ Kep x t.rd a1 ∧ a1.next.err.valid x.cfg.mode = true ∧ a1.ln = t.line + k + 1 ∧
      (if cutNul (x.joined t.line k) = [] then
        res = (if t.rd.next.serr.valid x.cfg.mode = false then .error t.rd.next.serr.msg else .ok [])
       else ∃ N, (k = 0 → N = (cutNul (x.joined t.line k)).length) ∧ res = textRes x N (cutNul (x.joined t.line k))) := by
  have hlen : (lines x.src.data).length = (rawLines x.src.data).length := by simp [lines]
  have hin := hk.inside
  rw [hlen, Mach.line_eq] at hin
  rcases h.here he with hh | ho
  · have hj := hh.join h.base
    rw [show t.rd.ln - 1 = t.line by rw [Mach.line_eq]] at hj
    obtain ⟨res, a1, h1, h2⟩ := parse_join hx.ok hx.clean hx.lf hx.ml hx.quotes hj (h.clean he)
    rcases h2 with ⟨m, _, _, j, _, h3⟩ | ⟨h2, h3, j, h4, h5, h6⟩
    · rcases h3 with ⟨h3, _⟩ | ⟨h3, _⟩
      · exact (hk.not_tooLong h3).elim
      · exact (hk.not_open h3).elim
    · cases hk.unique h5
      exact ⟨res, a1, h1, h2, h3, h4, h6⟩
  · have := ho.ln
    omega

/-- `try_next(...).or_else(...)...` without throw_on_error, given what `parse` makes of the row -/
theorem tryChain_gen {x : Ctx} (hth : x.cfg.mode ≠ .throw) (a : Parser.Alt) (as : List Parser.Alt) {t : Mach} (he : t.eof = false)
    {res : Except Bytes (List Bytes)} {a1 : MRd} (hp : PRes x t.rd res a1) (hb : MBase x a1)
    (hs : ∀ m, res = .error m → a1.next.serr.valid x.cfg.mode = false) :
    ∃ e c' n' t', SamePlace (t.readFrom x e { a1 with cur := c', next := n' }) t' ∧ MInv x t' ∧
      Mach.tryChain x a as t = .ok (chainOut (fun b => rowOf b.reqs a1.sel a1.ncols res) (a :: as)) t' ∧
      t'.valid x.cfg = (chainOut (fun b => rowOf b.reqs a1.sel a1.ncols res) (a :: as)).any (·.1.isSome) := by
  obtain ⟨e, c', n', h0, h2⟩ := getNext_of_parse (rs := a.reqs) he hp
  obtain ⟨g1, g2, g3⟩ := h0 hth
  have h1 : c'.serr.valid x.cfg.mode = false ∨ c'.cols ≠ none := by
    rw [g1, g2]
    cases res with
    | error m => exact .inl (hs m rfl)
    | ok cols => exact .inr (by rw [hp.2.2.2]; simp)
  have h1' : ∀ b : Parser.Alt, b.outcome (MRd.curRes x b.reqs { a1 with cur := c' }) =
      b.outcome (rowOf b.reqs a1.sel a1.ncols res) := by
    intro b
    unfold MRd.curRes
    simp only [g1, g2]
    cases res with
    | error m => rw [if_pos (hs m rfl)]; rfl
    | ok cols =>
      obtain ⟨_, _, h5, h6⟩ := hp
      simp only [h5, Bool.true_eq_false, if_false]
      rw [h6]; rfl
  refine ⟨e, c', n', ?_⟩
  have hi : MInv x (t.readFrom x e { a1 with cur := c', next := n' }) := MInv.readFrom (hb.slots _ _) _
  generalize ht1 : t.readFrom x e { a1 with cur := c', next := n' } = t1 at h2 hi
  have hcur : t1.rd.cur = c' ∧ t1.rd.sel = a1.sel ∧ t1.rd.ncols = a1.ncols := by
    obtain ⟨_, _, _, _, r5, r6, r7, _⟩ := (hb.slots c' n').read
    rw [← ht1]
    exact ⟨r5, r6, r7⟩
  have hcr : ∀ b : Parser.Alt, b.outcome (t1.rd.curRes x b.reqs) =
      b.outcome (rowOf b.reqs a1.sel a1.ncols res) := by
    intro b
    rw [← h1' b]
    unfold MRd.curRes
    rw [hcur.1, hcur.2.1, hcur.2.2]
  have hco : ∀ bs : List Parser.Alt, chainOut (fun b => t1.rd.curRes x b.reqs) bs =
      chainOut (fun b => rowOf b.reqs a1.sel a1.ncols res) bs := by
    intro bs
    induction bs with
    | nil => rfl
    | cons b bs ih => unfold chainOut; rw [hcr b, ih]
  unfold Mach.tryChain Mach.tryNext
  have hchain : ∀ o t2, Mach.tryNext x a t = .ok o t2 → Mach.tryChain x a as t = (Mach.orElses x as >>= fun r => pure (o :: r)) t2 := by
    intro o t2 h
    unfold Mach.tryChain
    rw [M.bind_of_ok h]
  cases hr : rowOf a.reqs a1.sel a1.ncols res with
  | ok vs =>
    rw [hr] at h2
    obtain ⟨h3, h4⟩ := h2
    obtain ⟨e', h5, h6⟩ := invoke_spec hth a vs (t := t1) h4
    have h7 : Mach.tryNext x a t = .ok (a.outcome (.ok vs)) { t1 with err := e' } := by
      unfold Mach.tryNext
      rw [M.bind_of_ok h3]
      have h4' : t1.valid x.cfg = true := h4
      simp only [M.get_bind, h4', if_true]
      exact h5
    have hsp : SamePlace t1 { t1 with err := e' } := ⟨rfl, rfl, rfl, rfl, rfl, rfl, rfl, rfl, rfl, rfl, rfl⟩
    have hi' : MInv x { t1 with err := e' } := hi.hdr ⟨rfl, rfl, rfl⟩
    unfold chainOut
    change ∃ t', SamePlace t1 t' ∧ MInv x t' ∧ Mach.tryChain x a as t = _ ∧ _
    rw [hchain _ _ h7, hr]
    cases hacc : a.accepts vs with
    | true =>
      have ho : (a.outcome (.ok vs)).1.isSome = true := by simp [Parser.Alt.outcome, hacc]
      refine ⟨{ t1 with err := e' }, hsp, hi', ?_, ?_⟩
      · rw [M.bind_of_ok (orElses_valid as (by show e'.valid _ = true; rw [h6, hacc]))]
        simp only [ho, if_true]
        rfl
      · simp only [Mach.valid, h6, hacc, List.any_cons, ho, Bool.true_or]
    | false =>
      have ho : (a.outcome (.ok vs)).1.isSome = false := by simp [Parser.Alt.outcome, hacc]
      obtain ⟨t2, h8, h9, h10⟩ := orElses_spec as (t := { t1 with err := e' }) (by show e'.valid _ = false; rw [h6, hacc])
        (by show (t1.rd.cur.serr.valid _ = false ∨ t1.rd.cur.cols ≠ none); rw [hcur.1]; exact h1)
      have hco' := hco as
      change chainOut (fun b => MRd.curRes x b.reqs t1.rd) as = _ at hco'
      simp only [hco'] at h8 h10
      refine ⟨t2, ?_, h9.inv hi', ?_, ?_⟩
      · have := h9.place
        exact ⟨this.1, this.2, this.3, this.4, this.5, this.6, this.7, this.8, this.9, this.10, this.11⟩
      · rw [M.bind_of_ok h8]
        simp only [ho, Bool.false_eq_true, if_false]
        rfl
      · simp only [h10, List.any_cons, ho, Bool.false_or, Bool.false_eq_true, if_false]
  | error m =>
    rw [hr] at h2
    have h3 : ∃ o, Mach.getNext x a.reqs t = .ok o t1 := by
      unfold MOut at h2
      cases hmode : x.cfg.mode with
      | throw => exact absurd hmode hth
      | string => simp only [hmode] at h2; obtain ⟨o, h, _⟩ := h2; exact ⟨o, h⟩
      | bool => simp only [hmode] at h2; obtain ⟨o, h, _⟩ := h2; exact ⟨o, h⟩
    obtain ⟨o, h3⟩ := h3
    obtain ⟨_, hv, _⟩ := h2.valid h3
    have h7 : Mach.tryNext x a t = .ok (none, false) t1 := by
      unfold Mach.tryNext
      rw [M.bind_of_ok h3]
      simp only [M.get_bind, hv, Bool.false_eq_true, if_false]
      rfl
    unfold chainOut
    change ∃ t', SamePlace t1 t' ∧ MInv x t' ∧ Mach.tryChain x a as t = _ ∧ _
    rw [hchain _ _ h7, hr]
    have ho : (a.outcome (.error m)).1.isSome = false := rfl
    obtain ⟨t2, h8, h9, h10⟩ := orElses_spec as hv (by rw [hcur.1]; exact h1)
    simp only [hco as] at h8 h10
    refine ⟨t2, h9.place, h9.inv hi, ?_, ?_⟩
    · rw [M.bind_of_ok h8]
      simp only [ho, Bool.false_eq_true, if_false]
      rfl
    · simp only [h10, List.any_cons, ho, Bool.false_or, Bool.false_eq_true, if_false]

theorem mexec_postM {x : Ctx} (hx : x.Ok) (hml : x.cfg.multiline = true) (op : Op) {t : Mach} (hop : op.Tame x t.line t.eof) (h : MInv x t) :
    Post (MInv x) (op.mexec x t) := by
  cases op with
  | getNext rs =>
    obtain ⟨h1, h2⟩ := getNext_postM hml rs h
    simp only [Op.mexec]
    cases hr : Mach.getNext x rs t with
    | ok o t1 =>
      rw [hr] at h1
      rw [M.bind_of_ok hr]
      simp only [M.get_bind]
      split
      · rename_i hv
        cases o with
        | none => exact absurd rfl (h2 _ _ hr hv)
        | some v => exact h1
      · exact h1
    | exc e t1 => rw [hr] at h1; rw [M.bind_of_exc hr]; exact h1
    | ub => rw [hr] at h1; exact h1.elim
    | nofuel => rw [hr] at h1; exact h1.elim
  | ignoreNext =>
    simp only [Op.mexec]
    rw [M.bind_of_ok (onRd_of_ok (MRd.readNext_eq x _))]
    exact h.read
  | header => exact Post.bind ((getHeader_post hx t).mono fun t' hs => h.hdr hs) (fun _ _ h => h) fun _ h => h
  | rawHeader => exact h
  | fieldExists f => exact Post.bind ((fieldExists_post hx f t).mono fun t' hs => h.hdr hs) (fun _ _ h => h) fun _ h => h
  | useFields fs => exact Post.bind (useFields_post hx fs h) (fun _ _ h => h) fun _ h => h
  | chain a as =>
    simp only [Op.mexec]
    simp only [M.get_bind]
    cases he : t.eof with
    | true => exact h
    | false =>
      simp only [Bool.false_eq_true, if_false]
      refine Post.bind (P := MInv x) ?_ (fun _ _ h => h) fun _ h => h
      by_cases hth : x.cfg.mode = .throw
      · have hval : ∀ t : Mach, t.valid x.cfg = true := by intro t; simp [Mach.valid, hth, ErrSt.valid]
        unfold Mach.tryChain
        refine Post.bind (P := MInv x) (tryNext_postM hml a h) (fun o t1 h1 => ?_) fun _ h => h
        rw [M.bind_of_ok (orElses_valid as (hval t1))]
        exact h1
      · rcases hop hml a as rfl with rfl | h1 | ⟨hmo, k, hk⟩
        · unfold Mach.tryChain
          exact Post.bind (tryNext_postM hml a h) (fun _ _ h => h) fun _ h => h
        · rw [he] at h1; cases h1
        · obtain ⟨res, a1, h1, hk1, hv1, _⟩ := parse_row hmo h he hk
          obtain ⟨e, c', n', t', _, h3, h4, _⟩ := tryChain_gen hth a as he h1 hk1.base (fun m hm => h1.serr hth hv1 hm)
          rw [h4]; exact h3

/-- every setup and input; with multiline `or_else` only behind complete rows -/
theorem Ctx.Ok.liveT {x : Ctx} (hx : x.Ok) :
    x.LiveFor fun n e op => op.Tame x n e := by
  cases hm : x.cfg.multiline with
  | false => exact ⟨hx.good hm, fun op _ _ h => mexec_post hx hm op h⟩
  | true =>
    exact ⟨⟨hx.fine, parseSim_many hx hm⟩, fun op _ hT h => mexec_postM hx hm op hT h⟩

end Ssp
