import Verif.Proofs.MachineCharsRun
import Verif.Props.ParserNoMl
/-!
# C75: an option whose characters do not occur in the input changes nothing
-/
namespace Ssp
open Spec

/-- one call on two parsers that follow the same machine -/
theorem step_sameM {x z : Ctx} {P : Mach → Prop} (hx : x.Ok) (hy : z.Ok) {s s' : Parser} {t : Mach} (op : Op)
    (hop : op.Tame x s.line s.eof) (hop' : op.Tame z s'.line s'.eof) (h : PRel x s t) (hi : MInv x t)
    (h' : PRel z s' t) (hi' : MInv z t) (hb : op.mexec z t = op.mexec x t ∧ Part P (op.mexec x t)) (hmode : z.cfg.mode = x.cfg.mode) (hsrc : z.src = x.src) :
    ∃ o s1 s1' t1, Parser.step x op s = some (o, s1) ∧ Parser.step z op s' = some (o, s1') ∧ PRel x s1 t1 ∧ MInv x t1 ∧
      PRel z s1' t1 ∧ MInv z t1 ∧ P t1 := by
  obtain ⟨o, o1, s1, t1, e1, e2, e3, e4, e5⟩ := step_simT hx.liveT op hop h hi
  obtain ⟨o', o1', s1', t1', e1', e2', e3', e4', e5'⟩ := step_simT hy.liveT op hop' h' hi'
  obtain ⟨hm, hpart⟩ := hb
  have hp1 : P t1 := by
    unfold Mach.step at e2
    cases hr : op.mexec x t with
    | ok v t2 => rw [hr] at e2 hpart; cases e2; exact hpart
    | exc v t2 => rw [hr] at e2 hpart; cases e2; exact hpart
    | ub => rw [hr] at e2; cases e2
    | nofuel => rw [hr] at e2; cases e2
  have hobs : ∀ r t, Mach.observe z r t = Mach.observe x r t := by
    intro r t
    unfold Mach.observe Mach.valid
    rw [hmode]
  have hst : Mach.step z op t = Mach.step x op t := by
    unfold Mach.step
    rw [hm]
    simp only [hobs]
  rw [e2, e2'] at hst
  obtain ⟨ho1, ht1⟩ := Prod.mk.inj (Option.some.inj hst)
  subst ho1 ht1
  have hpos : ∀ {z : Ctx} {p p1 : Parser} {ob : Obs}, Parser.step z op p = some (ob, p1) → ob.position = p1.rd.charsRead := by
    intro z p p1 ob hh
    unfold Parser.step at hh
    cases hr : op.exec z p <;> rw [hr] at hh <;> simp only [Option.some.injEq, Prod.mk.injEq, reduceCtorEq] at hh
    · obtain ⟨rfl, rfl⟩ := hh; rfl
    · obtain ⟨rfl, rfl⟩ := hh; rfl
  have hoo : o = o' := by
    have hp1 := (hpos e1).trans e3.base.chars
    have hp2 := (hpos e1').trans e3'.base.chars
    obtain ⟨r, v, m, e, l, p⟩ := o
    obtain ⟨r', v', m', e', l', p'⟩ := o'
    have a1 := e5.ret.trans e5'.ret.symm
    have a2 := e5.valid.trans e5'.valid.symm
    have a3 := e5.msg.trans e5'.msg.symm
    have a4 := e5.eof.trans e5'.eof.symm
    have a5 := e5.line.trans e5'.line.symm
    rw [hsrc] at hp2
    have a6 := hp1.trans hp2.symm
    dsimp only at a1 a2 a3 a4 a5 a6
    rw [a1, a2, a3, a4, a5, a6]
  subst hoo
  exact ⟨_, _, _, _, e1, e1', e3, e4, e3', e4', hp1⟩

section
variable {x : Ctx} {q : Option Byte} {e l r : List Byte}

local notation "y" => Ctx.withChars x q e l r
local notation "PM" => PlainM x (Ctx.cfg (Ctx.withChars x q e l r))

/-- C75: two parsers of the same input whose options `quote`, `escape`, `trim_left` and `trim_right` differ only in characters that do not
occur in the input cannot be told apart: results, error texts, exceptions, `eof()`, `line()` and `position()` of every sequence of calls
are the same.  (`Covered`: with multiline, no `or_else` behind a row that could not be completed; otherwise nothing.) -/
theorem C75_unused_characters (hx : x.Ok) (hy : (y).cfg.WF) (hw : x.wrapped = false ∨ x.cfg.multiline = false) (he : x.src.Exists)
    (hs : x.SameOnData (y)) {s s' : Parser} (h : Parser.Created x s) (h' : Parser.Created (y) s') (ops : List Op)
    (hc : Parser.Covered x ops s) (hc' : Parser.Covered (y) ops s') :
    ∃ os s1 s1', Parser.run x ops s = some (os, s1) ∧ Parser.run (y) ops s' = some (os, s1') := by
  have hyo : (y).Ok := ⟨hy, hx.delim, hx.delim0, hx.fine⟩
  obtain ⟨t, t1, t2⟩ := h.sim_exists hx.liveT.good he
  obtain ⟨t', t1', t2'⟩ := h'.sim_exists hyo.liveT.good he
  have ht : t' = t := by
    have : Mach.firstLine x (Mach.init x) = Mach.firstLine (y) (Mach.init (y)) := rfl
    rw [t1, t1'] at this
    cases this
    rfl
  subst ht
  have hi : MInv x t' := MNew.inv (.inl t1)
  have hi' : MInv (y) t' := MNew.inv (.inl t1')
  have hp : PM t' := (new_both (WF.agreeNul hx.wf hy) hs (.inl t1)).2
  clear t1 t1' h h'
  induction ops generalizing s s' t' with
  | nil => exact ⟨[], s, s', rfl, rfl⟩
  | cons op ops ih =>
    obtain ⟨o, s1, s1', t1, e1, e2, e3, e4, e5, e6, e7⟩ := step_sameM hx hyo op hc.1 hc'.1 t2 hi t2' hi'
      (mexec_both hx hyo hw op hp) rfl rfl
    obtain ⟨os, s2, s2', f1, f2⟩ := ih (hc.2 _ _ e1) (hc'.2 _ _ e2) _ e5 e3 e4 e6 e7
    exact ⟨o :: os, s2, s2', by simp [Parser.run, e1, f1], by simp [Parser.run, e2, f2]⟩

end

/-- the character is none of those of the options -/
def Cfg.Unused (c : Cfg) (b : Byte) : Prop := c.quote ≠ some b ∧ b ∉ c.escape ∧ b ∉ c.trimL ∧ b ∉ c.trimR

/-- no character of the options occurs in the input -/
def Ctx.NoneUsed (x : Ctx) : Prop := ∀ b ∈ x.src.data, x.cfg.Unused b

/-- the same parser without the options `quote`, `escape`, `trim`, `trim_left`, `trim_right` and `multiline` -/
def Ctx.bare (x : Ctx) : Ctx := x.noMultiline.withChars none [] [] []

theorem bare_wf (x : Ctx) : x.bare.cfg.WF := by
  constructor <;> simp [Ctx.bare, Ctx.withChars, Ctx.noMultiline, Cfg.noMultiline]

/-- C75: without multiline, all these options together are as if not given, if none of their characters occurs in the input. -/
theorem C75_no_option {x : Ctx} (hx : x.Ok) (hm : x.cfg.multiline = false) (he : x.src.Exists) (hn : x.NoneUsed) {s s' : Parser}
    (h : Parser.Created x s) (h' : Parser.Created (x.withChars none [] [] []) s') (ops : List Op) :
    ∃ os s1 s1', Parser.run x ops s = some (os, s1) ∧ Parser.run (x.withChars none [] [] []) ops s' = some (os, s1') := by
  refine C75_unused_characters hx ?_ (.inr hm) he ?_ h h' ops (.single hm) (.single (show (x.withChars none [] [] []).cfg.multiline = false from hm))
  · constructor <;> simp [Ctx.withChars, hm]
  · rintro b (hb | ⟨h1, _⟩)
    · obtain ⟨a1, a2, a3, a4⟩ := hn b hb
      exact ⟨⟨fun h => absurd h a1, fun h => by cases h⟩, ⟨fun h => absurd h a2, fun h => by cases h⟩,
        ⟨fun h => absurd h a3, fun h => by cases h⟩, ⟨fun h => absurd h a4, fun h => by cases h⟩⟩
    · rw [hm] at h1; cases h1

/-- with no quote and no escape in it, a line is a row for itself -/
theorem noneUsed_oneLine {x : Ctx} (hd : x.delim ≠ []) {l : Bytes} (hn : ∀ b ∈ l, x.cfg.Unused b) :
    x.OneLine l ∧ (decodeRow x.cfg x.delim (cutNul l)).2 = .eol := by
  have hag : AgreeIn { x.cfg with quote := none, escape := [], trimL := [], trimR := [] } x.cfg (cutNul l) := fun b hb => by
    obtain ⟨a1, a2, a3, a4⟩ := hn b (cutNul_sub b hb)
    exact ⟨⟨fun h => (by cases h), fun h => absurd h a1⟩, ⟨fun h => (by cases h), fun h => absurd h a2⟩,
      ⟨fun h => (by cases h), fun h => absurd h a3⟩, ⟨fun h => (by cases h), fun h => absurd h a4⟩⟩
  have hend : ∀ (c : Cfg) d m acc t, d ≠ [] → c.quote = none → c.escape = [] → m = .normal → (decode c d m acc t).2 = .eol := by
    intro c d m acc t hd hq hE hm
    have key : ∀ n t, t.length < n → ∀ acc, (decode c d .normal acc t).2 = .eol := by
      have hs : ∀ r, (start c r).1 = .normal := by
        intro r
        cases r with
        | nil => rfl
        | cons x xs => simp [start, hq]
      have hlast : ∀ n t, t.length < n → ∀ acc f E, field c d .normal acc t = .last f E → E = .eol := by
        intro n
        induction n with
        | zero => intro t ht; omega
        | succ n ih =>
          intro t ht acc f E hf
          rw [field_normal_eq] at hf
          have hl := length_dropWhile_le (fun x => decide (x ∈ c.trimR)) t
          cases hdw : t.dropWhile (fun x => decide (x ∈ c.trimR)) with
          | nil => rw [hdw] at hf; cases hf; rfl
          | cons z zs =>
            rw [hdw] at hf hl
            simp only [List.length_cons] at hl
            dsimp only at hf
            split at hf
            · cases hf
            · rw [if_neg (by simp [hE])] at hf
              exact ih zs (by omega) _ _ _ hf
      intro n
      induction n with
      | zero => intro t ht; omega
      | succ n ih =>
        intro t ht acc
        cases hf : field c d .normal acc t with
        | next f rest =>
          have hl := field_next_length c d hd .normal acc t f rest hf
          rw [decode_next hd hf]
          show (decodeFields c d rest).2 = _
          unfold decodeFields
          rw [hs]
          exact ih _ (by have := start_length_le c rest; omega) _
        | last f E =>
          rw [decode_last hf]
          exact hlast _ _ (Nat.lt_succ_self _) _ _ _ hf
        | stop E => exact absurd (field_stop_quoted _ _ _ _ _ _ hf) (by decide)
    exact hm ▸ key _ _ (Nat.lt_succ_self _) acc
  have h2 : (decodeRow x.cfg x.delim (cutNul l)).2 = .eol := by
    rw [(decodeRow_alike hd hag).1]
    unfold decodeRow decodeFields
    refine hend _ _ _ _ _ hd rfl rfl ?_
    cases (cutNul l).dropWhile fun b => decide (b ∈ ([] : List Byte)) with
    | nil => rfl
    | cons z zs => simp [start]
  refine ⟨⟨?_, .inl h2⟩, h2⟩
  unfold Cfg.Escaped
  have : l.reverse.takeWhile (fun b => decide (b ∈ x.cfg.escape)) = [] := by
    have hr : ∀ b ∈ l.reverse, b ∉ x.cfg.escape := fun b hb => (hn b (List.mem_reverse.mp hb)).2.1
    cases hl' : l.reverse with
    | nil => rfl
    | cons z zs =>
      rw [hl'] at hr
      simp [hr z (by simp)]
  rw [this]
  decide

theorem agreeIn_unused {c c' : Cfg} (h1 : c'.quote = none) (h2 : c'.escape = []) (h3 : c'.trimL = []) (h4 : c'.trimR = []) {t : Bytes}
    (h : AgreeIn c c' t) : ∀ b ∈ t, c.Unused b := by
  intro b hb
  obtain ⟨a1, a2, a3, a4⟩ := h b hb
  rw [h1] at a1; rw [h2] at a2; rw [h3] at a3; rw [h4] at a4
  exact ⟨fun h => (by cases a1.mp h), fun h => (by cases a2.mp h), fun h => (by cases a3.mp h), fun h => (by cases a4.mp h)⟩

theorem unused_agree {c c' : Cfg} (h1 : c'.quote = none) (h2 : c'.escape = []) (h3 : c'.trimL = []) (h4 : c'.trimR = []) {b : Byte}
    (h : c.Unused b) : c.AgreeAt c' b := by
  obtain ⟨a1, a2, a3, a4⟩ := h
  refine ⟨⟨fun h => absurd h a1, fun h => ?_⟩, ⟨fun h => absurd h a2, fun h => ?_⟩, ⟨fun h => absurd h a3, fun h => ?_⟩,
    ⟨fun h => absurd h a4, fun h => ?_⟩⟩
  · rw [h1] at h; cases h
  · rw [h2] at h; cases h
  · rw [h3] at h; cases h
  · rw [h4] at h; cases h

/-- one call -/
theorem mexec_bare {x : Ctx} (hx : x.Ok) (hw : x.wrapped = false) (op : Op) {t : Mach}
    (hp : PlainM x.noMultiline x.bare.cfg t) : op.mexec x.bare t = op.mexec x t ∧ Part (PlainM x.noMultiline x.bare.cfg) (op.mexec x t) := by
  have hx' : x.noMultiline.Ok := ⟨noMultiline_wf hx.wf, hx.delim, hx.delim0, hx.fine⟩
  have hb : x.bare.Ok := ⟨bare_wf x, hx.delim, hx.delim0, hx.fine⟩
  obtain ⟨h1, h2⟩ := mexec_both (x := x.noMultiline) (q := none) (e := []) (l := []) (r := []) hx' hb (.inr rfl) op hp
  have hu : ∀ b ∈ t.rd.look, x.cfg.Unused b := agreeIn_unused (c := x.noMultiline.cfg) rfl rfl rfl rfl hp.rd.look
  obtain ⟨h3, h4⟩ := noneUsed_oneLine hx.delim hu
  have hm : op.mexec x t = op.mexec x.noMultiline t := mexec_noMultiline hw op fun _ _ =>
    parse_noMultiline hx.delim h3.1 (.inr (.inl h4))
  rw [hm]
  exact ⟨h1, h2⟩

/-- C75: the same for all of them together with `multiline`.  (`Covered`: no `or_else` behind a last row that was skipped.) -/
theorem C75_no_option_multiline {x : Ctx} (hx : x.Ok) (hw : x.wrapped = false) (he : x.src.Exists) (hn : x.NoneUsed) {s s' : Parser}
    (h : Parser.Created x s) (h' : Parser.Created x.bare s') (ops : List Op) (hc : Parser.Covered x ops s) :
    ∃ os s1 s1', Parser.run x ops s = some (os, s1) ∧ Parser.run x.bare ops s' = some (os, s1') := by
  have hb : x.bare.Ok := ⟨bare_wf x, hx.delim, hx.delim0, hx.fine⟩
  obtain ⟨t, t1, t2⟩ := h.sim_exists hx.liveT.good he
  obtain ⟨t', t1', t2'⟩ := h'.sim_exists hb.liveT.good he
  have ht : t' = t := by
    have : Mach.firstLine x (Mach.init x) = Mach.firstLine x.bare (Mach.init x.bare) := rfl
    rw [t1, t1'] at this
    cases this
    rfl
  subst ht
  have hi : MInv x t' := MNew.inv (.inl t1)
  have hi' : MInv x.bare t' := MNew.inv (.inl t1')
  have hp : PlainM x.noMultiline x.bare.cfg t' := by
    refine (new_both (x := x.noMultiline) (q := none) (e := []) (l := []) (r := []) (WF.agreeNul (noMultiline_wf hx.wf) (bare_wf x)) ?_ (.inl t1)).2
    rintro b (hb | ⟨h1, _⟩)
    · exact unused_agree rfl rfl rfl rfl (hn b hb)
    · cases h1
  clear t1 t1' h h'
  induction ops generalizing s s' t' with
  | nil => exact ⟨[], s, s', rfl, rfl⟩
  | cons op ops ih =>
    obtain ⟨o, s1, s1', t1, e1, e2, e3, e4, e5, e6, e7⟩ := step_sameM hx hb op hc.1 (fun h => by cases h) t2 hi t2' hi'
      (mexec_bare hx hw op hp) rfl rfl
    obtain ⟨os, s2, s2', f1, f2⟩ := ih (hc.2 _ _ e1) _ e5 e3 e4 e6 e7
    exact ⟨o :: os, s2, s2', by simp [Parser.run, e1, f1], by simp [Parser.run, e2, f2]⟩

/-- C75, for a converter: `convert<...>(line, delim)` with two setups that differ only in characters which do not occur in the line gives the
same values or the same error text. -/
theorem C75_convert {c : Cfg} {q : Option Byte} {e l r : List Byte} {delim line T1 T2 : Bytes} {s1 s2 : Conv} (g1 : Given c delim line T1 s1)
    (g2 : Given { c with quote := q, escape := e, trimL := l, trimR := r } delim line T2 s2) (hm : s1.mappings = s2.mappings)
    (hn : s1.ncols = s2.ncols) (hst : line = [] → s1.spl.err.valid c.mode = true ∧ s2.spl.err.valid c.mode = true) (hcl : Closed c delim line)
    (ha : ∀ b ∈ line, c.AgreeAt { c with quote := q, escape := e, trimL := l, trimR := r } b) (rs : List Req) :
    (∃ vs, Yields c (Conv.convertLine c rs delim s1) vs ∧
      Yields { c with quote := q, escape := e, trimL := l, trimR := r }
        (Conv.convertLine { c with quote := q, escape := e, trimL := l, trimR := r } rs delim s2) vs) ∨
    (∃ m, Fails c (Conv.convertLine c rs delim s1) m ∧
      Fails { c with quote := q, escape := e, trimL := l, trimR := r }
        (Conv.convertLine { c with quote := q, escape := e, trimL := l, trimR := r } rs delim s2) m) := by
  have hdr := (decodeRow_alike (c := c) (c' := { c with quote := q, escape := e, trimL := l, trimR := r }) g1.delim_ne (r := line) ha).1
  have hcl2 : Closed { c with quote := q, escape := e, trimL := l, trimR := r } delim line := by
    intro h; rw [hdr]; exact hcl h
  have k1 := line_result g1 (rs := rs) hcl (fun h => (hst h).1)
  have k2 := line_result g2 (rs := rs) hcl2 (fun h => (hst h).2)
  have hres : Conv.lineRes { c with quote := q, escape := e, trimL := l, trimR := r } delim rs s2.mappings s2.ncols line =
      Conv.lineRes c delim rs s1.mappings s1.ncols line := by
    rw [← hm, ← hn]
    unfold Conv.lineRes
    have : splitRes { c with quote := q, escape := e, trimL := l, trimR := r } delim line = splitRes c delim line := by
      unfold splitRes
      rw [hdr]
      rfl
    rw [this]
  rw [hres] at k2
  cases hr : Conv.lineRes c delim rs s1.mappings s1.ncols line with
  | ok vs => rw [hr] at k1 k2; exact .inl ⟨vs, k1, k2⟩
  | error m => rw [hr] at k1 k2; exact .inr ⟨m, k1, k2⟩

/-! ## The hypotheses are met -/

namespace Demo

/-- quotes, escapes and trimming of spaces -/
def cu : Cfg := { mode := .string, quote := some 34, escape := [92], trimL := [32], trimR := [32] }

theorem cu_wf : cu.WF := by constructor <;> simp [cu] <;> decide

end Demo

open Demo in
/-- every sequence of calls on an input with a bad number and a short row -/
example (ops : List Op) : ∃ os s1 s1', Parser.run (ctx cu "a,1\nb,x\nc") ops (start cu "a,1\nb,x\nc") = some (os, s1) ∧
    Parser.run (ctx cs "a,1\nb,x\nc") ops (start cs "a,1\nb,x\nc") = some (os, s1') :=
  C75_no_option (x := ctx cu "a,1\nb,x\nc") (ok cu cu_wf _) rfl (by intro h; cases h)
    (by have : ∀ b ∈ bs "a,1\nb,x\nc", cu.quote ≠ some b ∧ b ∉ cu.escape ∧ b ∉ cu.trimL ∧ b ∉ cu.trimR := by decide +kernel
        exact this)
    (createdM cu_wf _) (createdM cs_wf _) ops

open Demo in
/-- another quote character, where the input has neither -/
example (ops : List Op) : ∃ os s1 s1', Parser.run (ctx cq "a, 1\nb,x") ops (start cq "a, 1\nb,x") = some (os, s1) ∧
    Parser.run (ctx { cq with quote := some 39 } "a, 1\nb,x") ops (start { cq with quote := some 39 } "a, 1\nb,x") = some (os, s1') := by
  have hw : ({ cq with quote := some 39 } : Cfg).WF := by constructor <;> simp [cq] <;> decide
  refine C75_unused_characters (x := ctx cq "a, 1\nb,x") (q := some 39) (e := []) (l := []) (r := []) (ok cq cq_wf _) hw (.inl rfl)
    (by intro h; cases h) ?_ (createdM cq_wf _) (createdM hw _) ops (.single rfl) (.single rfl)
  rintro b (hb | ⟨h1, _⟩)
  · have : ∀ b ∈ bs "a, 1\nb,x", cq.quote ≠ some b ∧ (some 39 : Option Byte) ≠ some b := by decide +kernel
    obtain ⟨a1, a2⟩ := this b hb
    exact ⟨⟨fun h => absurd h a1, fun h => absurd h a2⟩, ⟨id, id⟩, ⟨id, id⟩, ⟨id, id⟩⟩
  · cases h1

open Demo in
/-- with multiline, reading behind the last row, which was skipped, included -/
example : ∃ os s1 s1', Parser.run (ctx cm "a,b\nc") [.ignoreNext, .ignoreNext, .getNext [str]] (start cm "a,b\nc") = some (os, s1) ∧
    Parser.run (ctx cs "a,b\nc") [.ignoreNext, .ignoreNext, .getNext [str]] (start cs "a,b\nc") = some (os, s1') := by
  refine C75_no_option_multiline (x := ctx cm "a,b\nc") (ok cm cm_wf _) rfl (by intro h; cases h) ?_ (createdM cm_wf _) (createdM cs_wf _) _
    (.noOrElse (by simp))
  have : ∀ b ∈ bs "a,b\nc", cm.quote ≠ some b ∧ b ∉ cm.escape ∧ b ∉ cm.trimL ∧ b ∉ cm.trimR := by decide +kernel
  exact this

open Demo in
/-- it is needed: with one space in the input `trim` is seen -/
theorem C75_used_character : (runs cu "a, b" [.getNext [str, str]]).map (·.ret) ≠ (runs cs "a, b" [.getNext [str, str]]).map (·.ret) := by
  decide +kernel

end Ssp
