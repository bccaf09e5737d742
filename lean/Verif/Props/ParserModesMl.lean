import Verif.Props.ParserModes
import Verif.Props.ParserMultiline
/-!
# The error modes of a parser, with multiline (C47)
-/
namespace Ssp
open Spec

section
variable {x : Ctx} {md : ErrMode} {rs : List Req}

theorem withMode_goesOn (hd : x.delim ≠ []) (m : ErrMode) (t : Bytes) : (x.withMode m).GoesOn t ↔ x.GoesOn t := by
  unfold Ctx.GoesOn Cfg.InQuote
  have : decodeRow (x.withMode m).cfg (x.withMode m).delim (cutNul t) = decodeRow x.cfg x.delim (cutNul t) :=
    decodeRow_congr (c := x.cfg) (c' := x.cfg.withMode m) ⟨rfl, rfl, rfl, rfl⟩ hd (cutNul t)
  rw [this]
  exact Iff.rfl

theorem withMode_rowTo (hd : x.delim ≠ []) {m : ErrMode} {n k : Nat} : (x.withMode m).RowTo n k ↔ x.RowTo n k := by
  constructor
  · exact fun h => ⟨h.inside, fun hg => h.stops ((withMode_goesOn hd m _).mpr hg),
      fun i hi => ⟨(withMode_goesOn hd m _).mp (h.before i hi).1, (h.before i hi).2⟩⟩
  · exact fun h => ⟨h.inside, fun hg => h.stops ((withMode_goesOn hd m _).mp hg),
      fun i hi => ⟨(withMode_goesOn hd m _).mpr (h.before i hi).1, (h.before i hi).2⟩⟩

theorem withMode_rowTooLong (hd : x.delim ≠ []) {m : ErrMode} {n k : Nat} : (x.withMode m).RowTooLong n k ↔ x.RowTooLong n k := by
  constructor
  · exact fun h => ⟨h.inside, (withMode_goesOn hd m _).mp h.goesOn, h.limit,
      fun i hi => ⟨(withMode_goesOn hd m _).mp (h.before i hi).1, (h.before i hi).2⟩⟩
  · exact fun h => ⟨h.inside, (withMode_goesOn hd m _).mpr h.goesOn, h.limit,
      fun i hi => ⟨(withMode_goesOn hd m _).mpr (h.before i hi).1, (h.before i hi).2⟩⟩

theorem withMode_rowOpen (hd : x.delim ≠ []) {m : ErrMode} {n : Nat} : (x.withMode m).RowOpen n ↔ x.RowOpen n :=
  ⟨fun h k hk => ⟨(withMode_goesOn hd m _).mp (h k hk).1, (h k hk).2⟩,
    fun h k hk => ⟨(withMode_goesOn hd m _).mpr (h k hk).1, (h k hk).2⟩⟩

theorem Ctx.MlOk.withMode (h : x.MlOk) (m : ErrMode) : (x.withMode m).MlOk := by
  refine ⟨h.ok.withMode m, h.ml, h.clean, h.lf, fun n k hi hq => h.quotes n k hi ?_⟩
  obtain ⟨a, ha⟩ := hq
  refine ⟨a, ?_⟩
  rw [← ha]
  exact congrArg (·.2) (decodeRow_congr (c := x.cfg.withMode m) (c' := x.cfg) ⟨rfl, rfl, rfl, rfl⟩ h.ok.delim _)

theorem Parser.ReachT.selok {s : Parser} (hx : x.MlOk) (h : Parser.ReachT x s) (l : Bytes) : (s.converter l).SelOk := by
  obtain ⟨t, hp, _⟩ := h.sim hx.live
  show ∀ i ∈ s.rd.cur.conv.mappings, i < s.rd.cur.conv.ncols
  rw [hp.base.cur.sel, hp.base.cur.ncols]
  exact hp.base.selok

/-- The two parsers are at the same place. -/
structure SameSpot (x : Ctx) (s s' : Parser) : Prop where
  rest : x.rest s.line = x.rest s'.line
  eof : s.eof = s'.eof
  line : x.rest s.line ≠ [] → s.line = s'.line
  conv : x.rest s.line ≠ [] → ∀ l, s.converter l = s'.converter l

/-- the row `l` in both modes -/
theorem fresh_modesM (hx : x.MlOk) {m1 m2 : ErrMode} {s s' : Parser} (h : Parser.ReachT (x.withMode m1) s)
    (hc : ∀ l, s.converter l = s'.converter l) (rs : List Req) {n k : Nat} (hk : x.RowTo n k) :
    (∃ vs, Ssp.Yields (x.withMode m1).cfg (s.fresh (x.withMode m1) rs (x.joined n k)) vs ∧
      Ssp.Yields (x.withMode m2).cfg (s'.fresh (x.withMode m2) rs (x.joined n k)) vs) ∨
    (∃ a, Ssp.Fails (x.withMode m1).cfg (s.fresh (x.withMode m1) rs (x.joined n k)) a ∧
      Ssp.Fails (x.withMode m2).cfg (s'.fresh (x.withMode m2) rs (x.joined n k)) a) := by
  have hsel := h.selok (hx.withMode m1) (x.joined n k)
  obtain ⟨T, hT⟩ := cutNul_append_nul (x.joined n k) []
  have g1 : Given (x.cfg.withMode m1) x.delim (cutNul (x.joined n k)) T (s.converter (x.joined n k)) :=
    ⟨hx.ok.wf.withMode m1, hx.ok.delim, hx.ok.delim0, ⟨hT, cutNul_nul _, rfl⟩, hsel⟩
  have g2 : Given (x.cfg.withMode m2) x.delim (cutNul (x.joined n k)) T (s'.converter (x.joined n k)) :=
    ⟨hx.ok.wf.withMode m2, hx.ok.delim, hx.ok.delim0, ⟨hT, cutNul_nul _, rfl⟩, by rw [← hc]; exact hsel⟩
  have hcl : Closed x.cfg x.delim (cutNul (x.joined n k)) := by
    intro _
    cases hq : (decodeRow x.cfg x.delim (cutNul (x.joined n k))).2 with
    | openQuote a => exact absurd (.inr ⟨a, hq⟩) hk.stops
    | _ => rfl
  have hst : cutNul (x.joined n k) = [] → ({} : ErrSt).valid m1 = true ∧ ({} : ErrSt).valid m2 = true := by
    intro _
    cases m1 <;> cases m2 <;> exact ⟨rfl, rfl⟩
  rcases modes_outcomes g1 g2 (by rw [hc]) (by rw [hc]) hst hcl rs with h1 | ⟨a, b, h1, h2, h3⟩
  · exact .inl h1
  · have : a = b := h3 fun ht => by have := ht.1; rw [hx.ml] at this; cases this
    subst this
    exact .inr ⟨a, h1, h2⟩

/-- The texts of the errors agree at the row that starts in line `n`. -/
def SameTextM (x : Ctx) (md : ErrMode) (n : Nat) (o o' : Obs) : Prop :=
  x.cfg.ignoreEmpty = false → md = .string →
    (∀ k, x.RowTo n k → cutNul (x.joined n k) ≠ [] ∧
      (k = 0 ∨ ∃ cols, Accepts x.cfg (Spl.split x.cfg x.delim { mem := x.joined n k ++ [NUL] }) cols)) →
    ∀ m, o.ret = .thrown m → o'.msg = m

theorem errors_agree {x y : Ctx} (hxm : x.cfg.mode = .throw) (hym : y.cfg.mode ≠ .throw) {n n' : Nat} {r r' : Res Parser (List Val)}
    {s s' : Parser} {m m' : Bytes} (_ : RowOut x n r s (.error m)) (h' : RowOut y n' r' s' (.error m')) (rs : List Req) :
    AgreeOn (.getNext rs) (Parser.observe x (retOf x s (.error m)) s) (Parser.observe y (retOf y s' (.error m')) s') ∧
    ((x.at s.line m = y.at n' m') → y.cfg.mode = .string →
      ∀ t, (Parser.observe x (retOf x s (.error m)) s).ret = .thrown t → (Parser.observe y (retOf y s' (.error m')) s').msg = t) := by
  unfold RowOut at h'
  simp only [hym, if_false] at h'
  obtain ⟨vs, e1, e2, e3⟩ := h'
  refine ⟨.inr ⟨⟨x.at s.line m, ?_⟩, ?_, e2⟩, fun heq hs t ht => ?_⟩
  · show retOf x s (.error m) = _
    unfold retOf; simp [hxm]
  · show retOf y s' (.error m') = _
    unfold retOf; simp [hym]
  · have : retOf x s (.error m) = .thrown t := ht
    unfold retOf at this
    simp only [hxm, if_true] at this
    cases this
    show s'.err.msg = _
    rw [e3 hs, heq]

theorem modes_stepM (hx : x.MlOk) (hmd : md ≠ .throw) {s s' : Parser}
    (h : Parser.ReachT (x.withMode .throw) s) (h' : Parser.ReachT (x.withMode md) s') (hs : SameSpot x s s') {op : Op} (ho : op.reads) :
    ∃ o o' s1 s1', Parser.step (x.withMode .throw) op s = some (o, s1) ∧ Parser.step (x.withMode md) op s' = some (o', s1') ∧
      AgreeOn op o o' ∧ o.eof = o'.eof ∧ (x.rest s.line ≠ [] → SameTextM x md s.line o o') ∧ SameSpot x s1 s1' := by
  have hxt := hx.withMode .throw
  have hxd := hx.withMode md
  have hd := hx.ok.delim
  have hrest : ∀ m n, (x.withMode m).rest n = x.rest n := fun _ _ => rfl
  have hjoin : ∀ m n k, (x.withMode m).joined n k = x.joined n k := fun _ _ _ => rfl
  cases op with
  | ignoreNext =>
    have ht : ∀ n e m, (Op.ignoreNext).Tame (x.withMode m) n e := fun _ _ _ => by intro _ a as h; cases h
    cases hrow : x.rest s.line with
    | nil =>
      obtain ⟨o, s1, e1, e2, e3, e4⟩ := C33_nothing_left hxt.ok h hrow
      obtain ⟨o', s1', e1', e2', e3', e4'⟩ := C33_nothing_left hxd.ok h' (by rw [hrest, ← hs.rest, hrow])
      rw [hrest] at e3 e3'
      refine ⟨o, o', s1, s1', e1, e1', ?_, ?_, fun h => absurd rfl h, ⟨by rw [e3, e3'], by rw [e4, e4', hs.eof], fun h => absurd e3 h, fun h => absurd e3 h⟩⟩
      · show o.ret = o'.ret
        rw [e2, e2']
      · rw [step_eof e1, step_eof e1', e4, e4', hs.eof]
    | cons l ls =>
      have hne : x.rest s.line ≠ [] := by rw [hrow]; simp
      have hst := starts_here (x := x.withMode .throw) hxt.live h (by rw [hrest]; exact hne)
      have hl := hs.line hne
      obtain ⟨o, s1, e1, e2, e3, e4, _, _, e5, _⟩ := C33_ignore_next_partial hxt.ok h hrow
      obtain ⟨o', s1', e1', e2', e3', e4', _, _, e5', _⟩ := C33_ignore_next_partial hxd.ok h'
        (show (x.withMode md).rest s'.line = l :: ls by rw [hrest, ← hs.rest, hrow])
      rw [hrest] at e3 e3'
      refine ⟨o, o', s1, s1', e1, e1', ?_, ?_, fun _ _ _ _ m hm => (by rw [e2] at hm; cases hm), ⟨by rw [e3, e3'], by rw [e4, e4'], fun hne1 => ?_,
        fun _ k => by rw [e5, e5', hs.conv hne]⟩⟩
      · show o.ret = o'.ret
        rw [e2, e2']
      · rw [step_eof e1, step_eof e1', e4, e4']
      · have k1 := starts_here (x := x.withMode .throw) hxt.live (h.step (ht _ _ _) e1) (by rw [hrest]; exact hne1)
        have k2 := starts_here (x := x.withMode md) hxd.live (h'.step (ht _ _ _) e1') (by rw [hrest, e3', ← e3]; exact hne1)
        have k1' : x.Starts s1.line s1.line := ⟨k1.le, k1.row, k1.skipped⟩
        have k2' : x.Starts s1'.line s1'.line := ⟨k2.le, k2.row, k2.skipped⟩
        rcases Nat.le_total s1.line s1'.line with hle | hle
        · exact k1'.unique (starts_same hle (by rw [e3, e3']) k2')
        · exact (k2'.unique (starts_same hle (by rw [e3, e3']) k1')).symm
  | getNext rs =>
    cases hrow : x.rest s.line with
    | nil =>
      obtain ⟨s1, _, f1, f2, f3, f4⟩ := over_coreM hxt.ok hxt.ml h ho hrow
      obtain ⟨s1', _, f1', f2', f3', f4'⟩ := over_coreM hxd.ok hxd.ml h' ho (by rw [hrest, ← hs.rest, hrow])
      have g1 : ∃ e, Parser.getNext (x.withMode .throw) rs s = .exc e s1 := by
        rcases f2 with g | ⟨vs, g, gv⟩
        · exact g
        · exact absurd gv (by show ¬ ErrSt.valid .throw _ = false; simp [ErrSt.valid])
      have g2 : ∃ vs, Parser.getNext (x.withMode md) rs s' = .ok vs s1' ∧ s1'.valid (x.withMode md).cfg = false := by
        rcases f2' with ⟨e, g⟩ | g
        · obtain ⟨m, hf⟩ := f1'
          unfold Parser.Fails at hf
          have : (x.withMode md).cfg.mode = md := rfl
          rw [this] at hf
          cases md with
          | throw => exact absurd rfl hmd
          | string => obtain ⟨_, _, hf, _⟩ := hf; rw [g] at hf; cases hf
          | bool => obtain ⟨_, _, hf, _⟩ := hf; rw [g] at hf; cases hf
        · exact g
      obtain ⟨e, g1⟩ := g1
      obtain ⟨vs, g2, gv⟩ := g2
      rw [hrest] at f4 f4'
      refine ⟨Parser.observe (x.withMode .throw) (.thrown e) s1, Parser.observe (x.withMode md) (.row none) s1', s1, s1', ?_, ?_, ?_, ?_, fun h => absurd rfl h,
        ⟨by rw [f4, f4'], by rw [f3, f3'], fun h => absurd f4 h, fun h => absurd f4 h⟩⟩
      · unfold Parser.step Op.exec
        simp only
        rw [M.bind_of_exc g1]
      · unfold Parser.step Op.exec
        simp only
        rw [M.bind_of_ok g2]
        simp [gv]
      · exact .inr ⟨⟨e, rfl⟩, rfl, gv⟩
      · show s1.eof = s1'.eof
        rw [f3, f3']
    | cons l ls =>
      have hne : x.rest s.line ≠ [] := by rw [hrow]; simp
      have hne' : x.rest s'.line ≠ [] := by rw [← hs.rest]; exact hne
      obtain ⟨k, s1, res, f1, f2, f3, f4, f5, f6, _, f7⟩ := multi_core hxt h ho hne
      obtain ⟨k', s1', res', f1', f2', f3', f4', f5', f6', _, f7'⟩ := multi_core hxd h' ho hne'
      have hl := hs.line hne
      have hcv := hs.conv hne
      rw [← hl] at f1' f2' f3' f4' f5' f7'
      simp only [withMode_rowTo hd, withMode_rowTooLong hd, withMode_rowOpen hd, hrest, hjoin] at f2 f2' f3 f3' f7 f7'
      -- the same kind of row with the same lines
      have hkk : k = k' := by
        rcases f7 with ⟨a, _⟩ | ⟨a, _⟩ | ⟨a, a', _⟩ <;> rcases f7' with ⟨b, _⟩ | ⟨b, _⟩ | ⟨b, b', _⟩
        · exact a.unique b
        · exact (a.not_tooLong b).elim
        · exact (a.not_open b).elim
        · exact (b.not_tooLong a).elim
        · exact a.unique b
        · exact (a.not_open b).elim
        · exact (b.not_open a).elim
        · exact (b.not_open a).elim
        · have e : (lines (x.withMode .throw).src.data).length = (lines (x.withMode md).src.data).length := rfl
          omega
      subst hkk
      have hmt : (x.withMode .throw).cfg.mode = .throw := rfl
      have hmm : (x.withMode md).cfg.mode = md := rfl
      have hspot : SameSpot x s1 s1' := by
        refine ⟨by rw [f2, f2'], by rw [f3, f3'], fun hne1 => ?_, fun _ t => by rw [f6, f6', hcv]⟩
        have k1 := starts_here (x := x.withMode .throw) hxt.live (h.step .getNext f1.step) (by rw [hrest]; exact hne1)
        have k2 := starts_here (x := x.withMode md) hxd.live (h'.step .getNext f1'.step) (by rw [hrest, f2', ← f2]; exact hne1)
        have k1' : x.Starts s1.line s1.line := ⟨k1.le, k1.row, k1.skipped⟩
        have k2' : x.Starts s1'.line s1'.line := ⟨k2.le, k2.row, k2.skipped⟩
        exact (starts_same f4 f2.symm k1').unique (starts_same f4' f2'.symm k2')
      have hat : ∀ t, x.cfg.ignoreEmpty = false → (x.withMode .throw).at s1.line t = (x.withMode md).at (s.line + k + 1) t := by
        intro t hie
        rw [f5 hie]; rfl
      refine ⟨_, _, s1, s1', f1.step, f1'.step, ?_⟩
      suffices hmain : AgreeOn (.getNext rs) (Parser.observe (x.withMode .throw) (retOf (x.withMode .throw) s1 res) s1)
            (Parser.observe (x.withMode md) (retOf (x.withMode md) s1' res') s1') ∧
          SameTextM x md s.line (Parser.observe (x.withMode .throw) (retOf (x.withMode .throw) s1 res) s1)
            (Parser.observe (x.withMode md) (retOf (x.withMode md) s1' res') s1') from
        ⟨hmain.1, (by show s1.eof = s1'.eof; rw [f3, f3']), fun _ => hmain.2, hspot⟩
      have herr : ∀ m, res = .error m → res' = .error m →
          AgreeOn (.getNext rs) (Parser.observe (x.withMode .throw) (retOf (x.withMode .throw) s1 res) s1)
            (Parser.observe (x.withMode md) (retOf (x.withMode md) s1' res') s1') ∧
          SameTextM x md s.line (Parser.observe (x.withMode .throw) (retOf (x.withMode .throw) s1 res) s1)
            (Parser.observe (x.withMode md) (retOf (x.withMode md) s1' res') s1') := by
        rintro m rfl rfl
        have := errors_agree hmt (by rw [hmm]; exact hmd) f1 f1' rs
        exact ⟨this.1, fun hie hst _ => this.2 (hat m hie) (by rw [hmm]; exact hst)⟩
      rcases f7 with ⟨a, a1, a2⟩ | ⟨a, a1⟩ | ⟨a, _, a1⟩ <;> rcases f7' with ⟨b, b1, b2⟩ | ⟨b, b1⟩ | ⟨b, _, b1⟩
      · rcases fresh_modesM hx (m1 := .throw) (m2 := md) h hcv rs a with ⟨vs, y1, y2⟩ | ⟨m, y1, y2⟩
        · have r1 := (a1 vs).mpr y1
          have r2 := (b1 vs).mpr y2
          subst r1 r2
          unfold RowOut at f1 f1'
          refine ⟨.inl ⟨vs, rfl, rfl, f1.2, f1'.2⟩, fun _ _ _ m hm => ?_⟩
          cases hm
        · have k1 : ∃ m, res = .error m := by
            cases res with
            | error m => exact ⟨m, rfl⟩
            | ok vs => exact absurd ((a1 vs).mp rfl) (fails_not_yields y1)
          have k2 : ∃ m, res' = .error m := by
            cases res' with
            | error m => exact ⟨m, rfl⟩
            | ok vs => exact absurd ((b1 vs).mp rfl) (fails_not_yields y2)
          obtain ⟨m1, rfl⟩ := k1
          obtain ⟨m2, rfl⟩ := k2
          have hE := errors_agree hmt (by rw [hmm]; exact hmd) f1 f1' rs
          refine ⟨hE.1, fun hie hst hcond => ?_⟩
          subst hst
          obtain ⟨hjn, hsp⟩ := hcond k a
          have hsp' : k = 0 ∨ (decodeRow x.cfg x.delim (cutNul (x.joined s.line k))).2.stringError true 0 = none :=
            hsp.imp id fun ⟨cols, hc⟩ => by
              have := accepts_end hx.ok.wf hx.ok.delim hx.ok.delim0 hc
              rwa [hx.ml] at this
          have hdec : ∀ mm, (decodeRow (x.withMode mm).cfg (x.withMode mm).delim (cutNul (x.joined s.line k))) = decodeRow x.cfg x.delim (cutNul (x.joined s.line k)) :=
            fun mm => decodeRow_congr (c := x.cfg) (c' := x.cfg.withMode mm) ⟨rfl, rfl, rfl, rfl⟩ hd _
          rw [hdec] at a2 b2
          obtain ⟨_, q1, q2⟩ := a2 m y1 (.inl hjn) hsp'
          obtain ⟨_, q1', q2'⟩ := b2 m y2 (.inl hjn) hsp'
          cases q1; cases q1'
          have e1 := q2 (by rw [hmt]; decide)
          have e2 := q2' (by rw [hmm]; decide)
          subst e1 e2
          exact hE.2 (hat _ hie) hmm
      · exact (a.not_tooLong b).elim
      · exact (a.not_open b).elim
      · exact (b.not_tooLong a).elim
      · exact herr _ a1 b1
      · exact (a.not_open b).elim
      · exact (b.not_open a).elim
      · exact (b.not_open a).elim
      · have hesc : ∀ m t, (x.withMode m).cfg.Escaped t ↔ x.cfg.Escaped t := fun _ _ => Iff.rfl
        rw [hesc] at a1 b1
        rcases a1 with ⟨p, a1⟩ | ⟨p, a1⟩ <;> rcases b1 with ⟨q, b1⟩ | ⟨q, b1⟩
        · exact herr _ a1 b1
        · exact absurd p q
        · exact absurd q p
        · exact herr _ a1 b1
  | _ => exact absurd ho (by intro h; exact h)

theorem modes_runM (hx : x.MlOk) (hmd : md ≠ .throw) : ∀ (ops : List Op) {s s' : Parser},
    Parser.ReachT (x.withMode .throw) s → Parser.ReachT (x.withMode md) s' → SameSpot x s s' → (∀ op ∈ ops, op.reads) →
    ∃ os os' s1 s1', Parser.run (x.withMode .throw) ops s = some (os, s1) ∧ Parser.run (x.withMode md) ops s' = some (os', s1') ∧
      Parser.ReachT (x.withMode .throw) s1 ∧ Parser.ReachT (x.withMode md) s1' ∧ SameSpot x s1 s1' ∧
      ∀ (k : Nat) (op : Op), ops[k]? = some op → ∃ o o', os[k]? = some o ∧ os'[k]? = some o' ∧ AgreeOn op o o' ∧ o.eof = o'.eof := by
  intro ops
  induction ops with
  | nil => intro s s' h h' hs _; exact ⟨[], [], s, s', rfl, rfl, h, h', hs, fun k op h => by simp at h⟩
  | cons op ops ih =>
    intro s s' h h' hs ho
    have hop := ho op (List.mem_cons_self ..)
    obtain ⟨o, o', s1, s1', h1, h1', h2, h3, _, h5⟩ := modes_stepM hx hmd h h' hs hop
    have ht : ∀ m n e, op.Tame (x.withMode m) n e := by
      intro m n e _ a as h
      subst h
      exact hop.elim
    obtain ⟨os, os', s2, s2', g1, g1', r, r', g2, g3⟩ := ih (h.step (ht _ _ _) h1) (h'.step (ht _ _ _) h1') h5 fun op h => ho op (List.mem_cons_of_mem _ h)
    refine ⟨o :: os, o' :: os', s2, s2', by simp [Parser.run, h1, g1], by simp [Parser.run, h1', g1'], r, r', g2, ?_⟩
    intro k op' hk
    cases k with
    | zero => cases hk; exact ⟨o, o', rfl, rfl, h2, h3⟩
    | succ k => exact g3 k op' hk

theorem created_spot (hx : x.MlOk) {s s' : Parser} (h : Parser.Created (x.withMode .throw) s) (h' : Parser.Created (x.withMode md) s') :
    SameSpot x s s' := by
  have hxt := hx.withMode .throw
  have hxd := hx.withMode md
  obtain ⟨a1, a2, a3, _⟩ := created_rest hxt.live.good h
  obtain ⟨b1, b2, b3, _⟩ := created_rest hxd.live.good h'
  have e1 : x.rest s.line = x.rows := a1
  have e2 : x.rest s'.line = x.rows := b1
  refine ⟨by rw [e1, e2], by rw [a2, b2]; rfl, fun hne => ?_, fun _ l => by rw [a3, b3]⟩
  have hr : x.rest s.line = x.rest s'.line := by rw [e1, e2]
  have k1 := starts_here (x := x.withMode .throw) hxt.live h.reachT hne
  have k2 := starts_here (x := x.withMode md) hxd.live h'.reachT (by show x.rest s'.line ≠ []; rw [← hr]; exact hne)
  have k1' : x.Starts s.line s.line := ⟨k1.le, k1.row, k1.skipped⟩
  have k2' : x.Starts s'.line s'.line := ⟨k2.le, k2.row, k2.skipped⟩
  rcases Nat.le_total s.line s'.line with hle | hle
  · exact k1'.unique (starts_same hle hr k2')
  · exact (k2'.unique (starts_same hle hr.symm k1')).symm

/-- C47, with multiline: a parser with `throw_on_error` and one without, on the same input: for every sequence of `get_next` and
`ignore_next` calls, each call agrees: the same values, and an exception exactly if the other parser is invalid afterwards;
also `eof()` is the same. -/
theorem C47_modes_agree_multiline (hx : x.MlOk) (hmd : md ≠ .throw) {s s' : Parser}
    (h : Parser.Created (x.withMode .throw) s) (h' : Parser.Created (x.withMode md) s') {ops : List Op} (ho : ∀ op ∈ ops, op.reads) :
    ∃ os os' s1 s1', Parser.run (x.withMode .throw) ops s = some (os, s1) ∧ Parser.run (x.withMode md) ops s' = some (os', s1') ∧
      ∀ (k : Nat) (op : Op), ops[k]? = some op → ∃ o o', os[k]? = some o ∧ os'[k]? = some o' ∧ AgreeOn op o o' ∧ o.eof = o'.eof := by
  obtain ⟨os, os', s1, s1', g1, g2, _, _, _, g3⟩ := modes_runM hx hmd ops h.reachT h'.reachT (created_spot hx h h') ho
  exact ⟨os, os', s1, s1', g1, g2, g3⟩

/-- C47, with multiline: after any sequence of `get_next` and `ignore_next` calls, if the next `get_next` of the parser with
`throw_on_error` throws, the text of the exception is the `error_msg()` of the other parser - without `ignore_empty`, when a
line is left, and if the row is not the empty line, and is a single line or can be split.  (Rows with too many lines and rows
open at the end of the input are included.)  Missing: the others, as in `C47_modes_agree_partial`, and errors about a
mismatched quote in a row of several lines. -/
theorem C47_text_multiline_partial (hx : x.MlOk) (hie : x.cfg.ignoreEmpty = false) {s0 s0' s s' : Parser}
    (h : Parser.Created (x.withMode .throw) s0) (h' : Parser.Created (x.withMode .string) s0') {ops : List Op} (ho : ∀ op ∈ ops, op.reads)
    {os os' : List Obs} (hrun : Parser.run (x.withMode .throw) ops s0 = some (os, s))
    (hrun' : Parser.run (x.withMode .string) ops s0' = some (os', s')) (hin : s.line < (lines x.src.data).length)
    (hrow : ∀ k, x.RowTo s.line k → cutNul (x.joined s.line k) ≠ [] ∧
      (k = 0 ∨ ∃ cols, Accepts x.cfg (Spl.split x.cfg x.delim { mem := x.joined s.line k ++ [NUL] }) cols))
    (hrs : rs ≠ []) {m : Bytes} {s1 : Parser} (hthrow : Parser.getNext (x.withMode .throw) rs s = .exc m s1) :
    ∃ vs s1', Parser.getNext (x.withMode .string) rs s' = .ok vs s1' ∧ s1'.valid (x.withMode .string).cfg = false ∧ s1'.err.msg = m := by
  obtain ⟨os2, os2', t, t', g1, g2, r, r', hs, _⟩ := modes_runM hx (md := .string) (by decide) ops h.reachT h'.reachT (created_spot hx h h') ho
  rw [hrun] at g1; cases g1
  rw [hrun'] at g2; cases g2
  obtain ⟨o, o', t1, t1', h1, h1', h2, _, h4, _⟩ := modes_stepM hx (md := .string) (by decide) r r' hs (op := .getNext rs) hrs
  have hne : x.rest s.line ≠ [] := rest_of_inside (x := x.withMode .throw) (hx.withMode _) r hin
  have hret : o.ret = .thrown m := by
    unfold Parser.step Op.exec at h1
    simp only at h1
    rw [M.bind_of_exc hthrow] at h1
    cases h1
    rfl
  have hmsg := h4 hne hie rfl hrow m hret
  rcases h2 with ⟨vs, e, _⟩ | ⟨_, e2, e3⟩
  · rw [hret] at e; cases e
  · unfold Parser.step Op.exec at h1'
    simp only at h1'
    cases hg : Parser.getNext (x.withMode .string) rs s' with
    | ok vs s2 =>
      rw [M.bind_of_ok hg] at h1'
      have hobs := Option.some.inj h1'
      have hs2 : s2 = t1' := (Prod.mk.inj hobs).2
      subst hs2
      rw [← (Prod.mk.inj hobs).1] at e3 hmsg
      exact ⟨vs, s2, rfl, e3, hmsg⟩
    | exc e s2 =>
      rw [M.bind_of_exc hg] at h1'
      have hobs := Option.some.inj h1'
      rw [← (Prod.mk.inj hobs).1] at e2
      cases e2
    | ub => simp only [bind, M.bind, hg] at h1'; cases h1'
    | nofuel => simp only [bind, M.bind, hg] at h1'; cases h1'

end

open Demo in
/-- the modes on an input with rows of several lines: values, a bad conversion, a row that is too long, one open at the end -/
example : let t := "\"a\nb\",1\n\"c\nd\",x\n\"a\nb\nc\"\n\"e"
    let ops : List Op := [.getNext [str, num], .getNext [str, num], .getNext [str, num], .ignoreNext, .getNext [str]]
    (runs { cl with mode := .throw } t ops).map (fun o => (o.ret, o.eof)) =
      [(.row (some [.str (bs "a\nb"), .int 1]), false), (.thrown (bs "f 4: invalid conversion for parameter at column 2: 'x'"), false),
       (.thrown (bs "f 6: multiline limit reached"), false), (.flag true, false), (.thrown (bs "f 8: unterminated quote"), true)] ∧
    (runs cl t ops).map (fun o => (o.ret, o.msg, o.eof)) =
      [(.row (some [.str (bs "a\nb"), .int 1]), [], false), (.row none, bs "f 4: invalid conversion for parameter at column 2: 'x'", false),
       (.row none, bs "f 6: multiline limit reached", false), (.flag true, bs "f 6: multiline limit reached", false),
       (.row none, bs "f 8: unterminated quote", true)] := by
  decide +kernel

end Ssp
