import Verif.Props.Convert
/-!
# Properties of the converter: C24 (error modes), C50 (multiline), C03 (the line is not modified)
-/
namespace Ssp
open Spec

/-- the same setup with another error mode -/
def Cfg.withMode (c : Cfg) (m : ErrMode) : Cfg := { c with mode := m }

theorem withMode_same (c : Cfg) (m m' : ErrMode) : SameChars (c.withMode m) (c.withMode m') := ⟨rfl, rfl, rfl, rfl⟩

/-- Does splitting the line fail with a text that depends on the error mode?  (a quote followed by an escape
character at the end of the line, without multiline) -/
def TwoCauses (c : Cfg) (delim line : Bytes) : Prop :=
  c.multiline = false ∧ ∃ r, (decodeRow c delim line).2 = .mismatch r true

theorem splitRes_mode {c : Cfg} {delim line : Bytes} (hd : delim ≠ []) (m m' : ErrMode) :
    (∃ cols, splitRes (c.withMode m) delim line = .ok cols ∧ splitRes (c.withMode m') delim line = .ok cols) ∨
    (∃ a b, splitRes (c.withMode m) delim line = .error a ∧ splitRes (c.withMode m') delim line = .error b ∧
      (¬ TwoCauses c delim line → a = b)) := by
  by_cases hl : line = []
  · exact .inl ⟨[], by simp [splitRes, hl], by simp [splitRes, hl]⟩
  have h1 : decodeRow (c.withMode m) delim line = decodeRow c delim line := decodeRow_congr (c := c) (c' := c.withMode m) ⟨rfl, rfl, rfl, rfl⟩ hd line
  have h2 : decodeRow (c.withMode m') delim line = decodeRow c delim line := decodeRow_congr (c := c) (c' := c.withMode m') ⟨rfl, rfl, rfl, rfl⟩ hd line
  simp only [splitRes, hl, if_false, h1, h2]
  generalize hdr : decodeRow c delim line = x
  obtain ⟨fs, e⟩ := x
  simp only [endError, Cfg.withMode]
  by_cases hs : e.stringError c.multiline line.length = none
  · have ht := (throwError_none_iff e c.multiline line.length line.length).mpr hs
    left
    simp only [hs, ht, ite_self]
    exact ⟨fs, rfl, rfl⟩
  · have ht : e.throwError c.multiline line.length ≠ none := fun h => hs ((throwError_none_iff _ _ _ _).mp h)
    obtain ⟨a, ha⟩ := Option.ne_none_iff_exists'.mp hs
    obtain ⟨b, hb⟩ := Option.ne_none_iff_exists'.mp ht
    right
    have hab : ¬ TwoCauses c delim line → a = b := by
      intro hnt
      cases e with
      | mismatch r esc =>
        cases esc with
        | true =>
          cases hml : c.multiline with
          | false => exact absurd ⟨hml, r, by rw [hdr]⟩ hnt
          | true =>
            rw [hml] at ha hb
            simp only [End.stringError, End.throwError, if_true] at ha hb
            rw [ha] at hb; exact Option.some.inj hb
        | false =>
          have : End.throwError c.multiline line.length (.mismatch r false) = End.stringError c.multiline line.length (.mismatch r false) := by
            simp [End.throwError]
          rw [this, ha] at hb; exact Option.some.inj hb
      | _ =>
        simp only [End.throwError] at hb
        rw [ha] at hb; exact Option.some.inj hb
    simp only [ha, hb]
    by_cases hm : m = .throw <;> by_cases hm' : m' = .throw <;> simp only [hm, hm', if_true, if_false]
    · exact ⟨b, b, rfl, rfl, fun _ => rfl⟩
    · exact ⟨b, a, rfl, rfl, fun h => (hab h).symm⟩
    · exact ⟨a, b, rfl, rfl, hab⟩
    · exact ⟨a, a, rfl, rfl, fun _ => rfl⟩

section
variable {c : Cfg} {delim line T1 T2 : Bytes} {m1 m2 : ErrMode} {s1 s2 : Conv}
  (g1 : Given (c.withMode m1) delim line T1 s1) (g2 : Given (c.withMode m2) delim line T2 s2)
  (hm : s1.mappings = s2.mappings) (hn : s1.ncols = s2.ncols)
  (hst : line = [] → s1.spl.err.valid m1 = true ∧ s2.spl.err.valid m2 = true)
  (hcl : Closed c delim line)
include g1 g2 hm hn hst hcl

theorem modes_outcomes (rs : List Req) :
    (∃ vs, Yields (c.withMode m1) (Conv.convertLine (c.withMode m1) rs delim s1) vs ∧
      Yields (c.withMode m2) (Conv.convertLine (c.withMode m2) rs delim s2) vs) ∨
    (∃ a b, Fails (c.withMode m1) (Conv.convertLine (c.withMode m1) rs delim s1) a ∧
      Fails (c.withMode m2) (Conv.convertLine (c.withMode m2) rs delim s2) b ∧ (¬ TwoCauses c delim line → a = b)) := by
  have hc1 : Closed (c.withMode m1) delim line := by
    intro h; rw [decodeRow_congr (c := c) (c' := c.withMode m1) ⟨rfl, rfl, rfl, rfl⟩ g1.delim_ne]; exact hcl h
  have hc2 : Closed (c.withMode m2) delim line := by
    intro h; rw [decodeRow_congr (c := c) (c' := c.withMode m2) ⟨rfl, rfl, rfl, rfl⟩ g1.delim_ne]; exact hcl h
  have k1 := line_result g1 (rs := rs) hc1 (fun h => (hst h).1)
  have k2 := line_result g2 (rs := rs) hc2 (fun h => (hst h).2)
  rw [hm, hn] at k1
  unfold Conv.lineRes at k1 k2
  rcases splitRes_mode (c := c) (line := line) g1.delim_ne m1 m2 with ⟨cols, e1, e2⟩ | ⟨a, b, e1, e2, e3⟩
  · rw [e1] at k1; rw [e2] at k2
    simp only at k1 k2
    cases hr : rowResult rs s2.mappings s2.ncols cols with
    | ok vs => rw [hr] at k1 k2; exact .inl ⟨vs, k1, k2⟩
    | error m => rw [hr] at k1 k2; exact .inr ⟨m, m, k1, k2, fun _ => rfl⟩
  · rw [e1] at k1; rw [e2] at k2
    exact .inr ⟨a, b, k1, k2, e3⟩

end

theorem fails_unique {c : Cfg} {r : Res Conv (List Val)} {a b : Bytes} (ha : Fails c r a) (hb : Fails c r b)
    (hmm : c.mode ≠ .bool) : a = b := by
  unfold Fails at ha hb
  cases hmd : c.mode with
  | throw => rw [hmd] at ha hb; obtain ⟨_, h⟩ := ha; obtain ⟨_, h'⟩ := hb; rw [h] at h'; cases h'; rfl
  | string =>
    rw [hmd] at ha hb; obtain ⟨_, _, h, _, h1⟩ := ha; obtain ⟨_, _, h', _, h2⟩ := hb
    rw [h] at h'; cases h'; rw [← h1, h2]
  | bool => exact absurd hmd hmm

/-- C24 is false of the code for the text: `"abc"\` is a mismatched quote in string mode and an unterminated escape
as an exception. -/
theorem C24_text_differs :
    let c : Cfg := { quote := some 34, escape := [92] }
    Fails (c.withMode .throw) (Conv.convertLine (c.withMode .throw) [.ty .str] (bs ",") (convOn (bs "\"abc\"\\")))
      (bs "unterminated escape at the end of the line") ∧
    Fails (c.withMode .string) (Conv.convertLine (c.withMode .string) [.ty .str] (bs ",") (convOn (bs "\"abc\"\\")))
      (bs "mismatched quote at position: 4") := by
  exact ⟨Res.exc_of (by decide +kernel),
    Res.ok_of (P := fun _ s => Conv.valid _ s = false ∧ s.err.msg = _) (by decide +kernel)⟩

example : ¬ TwoCauses fullCfg (bs ",") (bs "a,\"b\"x") ∧ Closed fullCfg (bs ",") (bs "a,\"b\"x") := by
  refine ⟨?_, by intro h; cases h⟩
  rintro ⟨_, r, h⟩
  have : (decodeRow fullCfg (bs ",") (bs "a,\"b\"x")).2 = .mismatch 2 false := by decide +kernel
  rw [this] at h; cases h

/-! ## C50 -/

/-- the same setup with multiline off -/
def Cfg.noMultiline (c : Cfg) : Cfg := { c with multiline := false }

theorem noMultiline_wf {c : Cfg} (h : c.WF) : c.noMultiline.WF :=
  ⟨h.1, h.2, h.3, h.4, h.5, h.6, h.7, h.8, h.9, fun h => by cases h⟩

/-- C50: on every line that is a complete row - one that splitting without multiline accepts - multiline makes no
difference for the converter.

Partial: on the other lines it does, see `C50_open_quote_accepted`. -/
theorem C50_no_impact_partial {c : Cfg} {delim line T1 T2 : Bytes} {s1 s2 : Conv} {cols : List Bytes}
    (g1 : Given c delim line T1 s1) (g2 : Given c.noMultiline delim line T2 s2)
    (hm : s1.mappings = s2.mappings) (hn : s1.ncols = s2.ncols) (hl : line ≠ [])
    (ha : Accepts c.noMultiline (Spl.split c.noMultiline delim s2.spl) cols) (rs : List Req) :
    (∀ vs, Yields c (Conv.convertLine c rs delim s1) vs ↔
      Yields c.noMultiline (Conv.convertLine c.noMultiline rs delim s2) vs) ∧
    (∀ a, Fails c (Conv.convertLine c rs delim s1) a ↔
      Fails c.noMultiline (Conv.convertLine c.noMultiline rs delim s2) a) := by
  obtain ⟨h1, h2⟩ := line_of_accepts g2.wf g2.delim_ne g2.delim_nul g2.holds hl ha
  have hdr : decodeRow c.noMultiline delim line = decodeRow c delim line := decodeRow_congr (c := c) (c' := c.noMultiline) ⟨rfl, rfl, rfl, rfl⟩ g1.delim_ne _
  have heol : (decodeRow c delim line).2 = .eol ∧ splitRes c delim line = .ok cols := by
    simp only [splitRes, hl, if_false, hdr] at h1
    cases hx : endError c.noMultiline line.length (decodeRow c delim line).2 with
    | some m => rw [hx] at h1; cases h1
    | none =>
      rw [hx] at h1
      have := (endError_none_iff (n := 0)).mp hx
      have he : (decodeRow c delim line).2 = .eol := by
        cases he : (decodeRow c delim line).2 <;> rw [he] at this <;> simp [End.stringError, Cfg.noMultiline] at this
      refine ⟨he, ?_⟩
      simp only [splitRes, hl, if_false]
      have : endError c line.length (decodeRow c delim line).2 = none :=
        (endError_none_iff (n := 0)).mpr (by rw [he]; rfl)
      rw [this]; exact h1
  have hcl : Closed c delim line := fun _ => by rw [heol.1]; rfl
  have k1 := line_result g1 (rs := rs) hcl (fun h => absurd h hl)
  have k2 := line_result g2 (rs := rs) h2 (fun h => absurd h hl)
  rw [hm, hn] at k1
  simp only [Conv.lineRes, heol.2, h1] at k1 k2
  cases hr : rowResult rs s2.mappings s2.ncols cols with
  | ok vs =>
    rw [hr] at k1 k2
    refine ⟨fun ws => ⟨fun h => ?_, fun h => ?_⟩, fun a => ⟨fun h => ?_, fun h => ?_⟩⟩
    · cases yields_unique k1 h; exact k2
    · cases yields_unique k2 h; exact k1
    · exact absurd k1 (fails_not_yields h)
    · exact absurd k2 (fails_not_yields h)
  | error m =>
    rw [hr] at k1 k2
    refine ⟨fun ws => ⟨fun h => absurd h (fails_not_yields k1), fun h => absurd h (fails_not_yields k2)⟩, fun a => ?_⟩
    by_cases hb : c.mode = .bool
    · have e1 : ∀ x, Fails c (Conv.convertLine c rs delim s1) x ↔ Fails c (Conv.convertLine c rs delim s1) m := by
        intro x; unfold Fails; rw [hb]
      have e2 : ∀ x, Fails c.noMultiline (Conv.convertLine c.noMultiline rs delim s2) x ↔
          Fails c.noMultiline (Conv.convertLine c.noMultiline rs delim s2) m := by
        intro x; unfold Fails; rw [show c.noMultiline.mode = .bool from hb]
      rw [e1, e2]
      exact ⟨fun _ => k2, fun _ => k1⟩
    · constructor <;> intro h
      · cases fails_unique k1 h hb; exact k2
      · cases fails_unique k2 h hb; exact k1

/-- C50 is false of the code: with multiline the converter accepts `"abc` as a row whose only column is `"`. -/
theorem C50_open_quote_accepted :
    let c : Cfg := { quote := some 34, multiline := true, mode := .string }
    Yields c (Conv.convertLine c [.ty .str] (bs ",") (convOn (bs "\"abc"))) [.str (bs "\"")] ∧
    Fails c.noMultiline (Conv.convertLine c.noMultiline [.ty .str] (bs ",") (convOn (bs "\"abc")))
      (bs "unterminated quote") := by
  refine ⟨?_, Res.ok_of (P := fun _ s => Conv.valid _ s = false ∧ s.err.msg = _) (by decide +kernel)⟩
  obtain ⟨_, s, h, rfl, h2⟩ :=
    Res.ok_of (r := Conv.convertLine { quote := some 34, multiline := true, mode := .string } [.ty .str] (bs ",") (convOn (bs "\"abc")))
    (P := fun vs s => vs = [.str (bs "\"")] ∧ Conv.valid { quote := some 34, multiline := true, mode := .string } s = true)
    (by decide +kernel)
  exact ⟨s, h, h2⟩

/-! ## C03 -/

/-- the operation leaves the splitter alone -/
def SplSame {α : Type} (m : M Conv α) : Prop :=
  ∀ s, match m s with
    | .ok _ s' => s'.spl = s.spl
    | .exc _ s' => s'.spl = s.spl
    | _ => True

theorem SplSame.bind {α β : Type} {m : M Conv α} {f : α → M Conv β} (h : SplSame m) (hf : ∀ a, SplSame (f a)) :
    SplSame (m >>= f) := by
  intro s
  have h1 := h s
  simp only [M.bind_apply]
  cases hm : m s with
  | ok a s' =>
    rw [hm] at h1
    have h2 := hf a s'
    simp only at h1 h2 ⊢
    cases hx : f a s' with
    | ok b s'' => rw [hx] at h2; exact h2.trans h1
    | exc e s'' => rw [hx] at h2; exact h2.trans h1
    | ub => trivial
    | nofuel => trivial
  | exc e s' => rw [hm] at h1; exact h1
  | ub => trivial
  | nofuel => trivial

theorem SplSame.pure {α : Type} (a : α) : SplSame (Pure.pure a : M Conv α) := fun _ => rfl
theorem SplSame.get : SplSame (M.get : M Conv Conv) := fun _ => rfl
theorem SplSame.modify {f : Conv → Conv} (h : ∀ s, (f s).spl = s.spl) : SplSame (M.modify f) := fun s => h s
theorem SplSame.ite {α : Type} {p : Prop} [Decidable p] {a b : M Conv α} (ha : SplSame a) (hb : SplSame b) :
    SplSame (if p then a else b) := by split <;> assumption

theorem SplSame.handleError (c : Cfg) (m : Bytes) : SplSame (Conv.handleError c m) := by
  intro s
  rw [Conv.handleError_eq]
  by_cases h : c.mode = .throw <;> simp [h]

theorem SplSame.extractAt (t : Ty) (p : Nat × Nat) (d : Val) : SplSame (Conv.extractAt t p d) := by
  intro s
  unfold Conv.extractAt
  by_cases h : s.spl.gen ≠ s.spl.lineGen ∨ p.2 < p.1 ∨ s.spl.mem.length < p.2
  · rw [if_pos h]; trivial
  · rw [if_neg h]
    cases Ssp.extract s.spl.mem p.1 p.2 t d <;> trivial

theorem SplSame.columnPosition (i : Nat) : SplSame (Conv.columnPosition i) := by
  intro s
  unfold Conv.columnPosition
  by_cases h : s.mappings = []
  · rw [if_pos h]
  · rw [if_neg h]; cases s.mappings[i]? <;> trivial

theorem SplSame.elemAt (e : List (Nat × Nat)) (i : Nat) : SplSame (Conv.elemAt e i) := by
  intro s
  unfold Conv.elemAt
  cases e[i]? <;> trivial

theorem SplSame.textOf (p : Nat × Nat) : SplSame (Conv.textOf p) := fun _ => rfl

theorem SplSame.extractOne (c : Cfg) (r : Req) (p : Nat × Nat) (i : Nat) (d : Val) :
    SplSame (Conv.extractOne c r p i d) := by
  unfold Conv.extractOne
  refine .bind .get fun s => .ite (.pure _) ?_
  split
  · exact .pure _
  · exact .bind (.extractAt _ _ _) fun _ => .pure _
  · exact .bind (.extractAt _ _ _) fun _ => .ite (.bind (.textOf _) fun _ => .bind (.handleError _ _) fun _ => .pure _) (.pure _)
  · exact .bind (.extractAt _ _ _) fun _ => .ite (.bind (.textOf _) fun _ => .bind (.handleError _ _) fun _ => .pure _)
      (.ite (.bind (.textOf _) fun _ => .bind (.handleError _ _) fun _ => .pure _) (.pure _))

theorem SplSame.extractMultiple (c : Cfg) (e : List (Nat × Nat)) : ∀ (rs : List Req) (i : Nat),
    SplSame (Conv.extractMultiple c e rs i)
  | [], _ => by unfold Conv.extractMultiple; exact .pure _
  | .void :: rs, i => by unfold Conv.extractMultiple; exact SplSame.extractMultiple c e rs (i + 1)
  | .ty t :: rs, i => by
    unfold Conv.extractMultiple
    exact .bind (.columnPosition _) fun _ => .bind (.elemAt _ _) fun _ => .bind (.extractOne _ _ _ _ _) fun _ =>
      .bind (SplSame.extractMultiple c e rs (i + 1)) fun _ => .pure _
  | .valid t q msg :: rs, i => by
    unfold Conv.extractMultiple
    exact .bind (.columnPosition _) fun _ => .bind (.elemAt _ _) fun _ => .bind (.extractOne _ _ _ _ _) fun _ =>
      .bind (SplSame.extractMultiple c e rs (i + 1)) fun _ => .pure _

theorem SplSame.badSplit (c : Cfg) : SplSame (Conv.handleErrorBadSplit c) :=
  .modify fun s => by cases c.mode <;> rfl

/-- Converting an already split line touches neither the line nor the split. -/
theorem SplSame.convertImpl (c : Cfg) (rs : List Req) (e : List (Nat × Nat)) : SplSame (Conv.convertImpl c rs e) := by
  unfold Conv.convertImpl
  have hb : SplSame (Conv.handleErrorBadSplit c) := .badSplit c
  refine .bind (.modify fun _ => rfl) fun _ => .bind .get fun s => .ite (.bind hb fun _ => .pure _) ?_
  refine .ite (.ite (.bind (.handleError _ _) fun _ => .pure _) (.extractMultiple _ _ _ _)) ?_
  exact .ite (.bind (.handleError _ _) fun _ => .pure _) (.ite (.bind (.handleError _ _) fun _ => .pure _) (.extractMultiple _ _ _ _))

/-- C03 (converting): with neither quote nor escape, `convert(line)` leaves every byte of the line's storage
unchanged, whether it returns or throws. -/
theorem C03_convert_const {c : Cfg} {delim line T : Bytes} {s : Conv} (g : Given c delim line T s)
    (hq : c.quote = none) (he : c.escape = []) (h0 : s.spl.escaped = 0) (rs : List Req) :
    ∃ s', ((∃ vs, Conv.convertLine c rs delim s = .ok vs s') ∨ ∃ m, Conv.convertLine c rs delim s = .exc m s') ∧
      s'.spl.mem = s.spl.mem := by
  have hcl : Closed c delim line := by
    intro hmulti
    cases hx : (decodeRow c delim line).2 with
    | openQuote a =>
      exfalso
      have h := split_full g.wf g.delim_ne g.delim_nul g.holds
      obtain ⟨sp, hk, hsp⟩ := Conv.split_spec g.wf g.delim_ne g.delim_nul g.holds
      have hkn : ∃ sp, Known c delim line sp := by
        cases hm : endError c line.length (decodeRow c delim line).2 with
        | none => rw [hm] at h; obtain ⟨s1, _, _, _, h, _⟩ := h; exact ⟨s1, h⟩
        | some m =>
          rw [hm] at h; obtain ⟨s1, _, h⟩ := h
          by_cases ht : c.mode = .throw
          · exfalso
            have hp := split_post g.wf g.delim_ne g.delim_nul g.holds
            rw [hx] at hm
            simp [endError, End.throwError, End.stringError, hmulti] at hm
          · rw [if_neg ht] at h; exact ⟨s1, h.2.2.1⟩
      obtain ⟨sp, _, ⟨N, T, _, _, hl⟩, _⟩ := hkn
      rw [hx] at hl
      obtain ⟨_, _, q, _, _, h2, _⟩ := hl
      rw [hq] at h2; cases h2
    | _ => rfl
  obtain ⟨sp, hk, hsp⟩ := Conv.split_spec g.wf g.delim_ne g.delim_nul g.holds
  have hmem : ∀ sp', Conv.split c delim s = .ok () { s with spl := sp' } ∨
      (∃ m, Conv.split c delim s = .exc m { s with spl := sp' }) → sp'.mem = s.spl.mem := by
    intro sp' h
    by_cases hl : line = []
    · subst hl
      rw [Conv.split_nil g.holds] at h
      rcases h with h | ⟨m, h⟩
      · cases h; rfl
      · cases h
    · rw [Conv.split_cons hl g.holds] at h
      have := Spl.Keeps.split hq he delim { s.spl with data := [] } h0
      simp only [Conv.onSpl] at h
      cases hx : Spl.split c delim { s.spl with data := [] } with
      | ok a s1 =>
        rw [hx] at h this
        rcases h with h | ⟨m, h⟩ <;> cases h
        exact this.1
      | exc e s1 =>
        rw [hx] at h this
        rcases h with h | ⟨m, h⟩ <;> cases h
        exact this.1
      | ub => rw [hx] at h; rcases h with h | ⟨m, h⟩ <;> cases h
      | nofuel => rw [hx] at h; rcases h with h | ⟨m, h⟩ <;> cases h
  have hthen : Conv.split c delim s = .ok () { s with spl := sp } → ∀ s',
      ((∃ vs, Conv.convertLine c rs delim s = .ok vs s') ∨ ∃ m, Conv.convertLine c rs delim s = .exc m s') →
      s'.spl = sp := by
    intro h1 s' h
    unfold Conv.convertLine at h
    rw [M.bind_of_ok h1] at h
    simp only [M.get_bind] at h
    have := SplSame.ite (p := sp.err.valid c.mode = true) (SplSame.convertImpl c rs sp.data)
      (SplSame.bind (SplSame.badSplit c) fun _ => SplSame.pure (Conv.defaults rs)) { s with spl := sp }
    rcases h with ⟨vs, h⟩ | ⟨m, h⟩ <;> rw [h] at this <;> exact this
  -- the call returns or throws
  have htot : ∃ s', (∃ vs, Conv.convertLine c rs delim s = .ok vs s') ∨ ∃ m, Conv.convertLine c rs delim s = .exc m s' := by
    by_cases hst : line = [] → s.spl.err.valid c.mode = true
    · have := line_result g (rs := rs) hcl hst
      revert this
      cases Conv.lineRes c delim rs s.mappings s.ncols line with
      | ok vs => rintro ⟨s', h, _⟩; exact ⟨s', .inl ⟨vs, h⟩⟩
      | error m =>
        simp only [Fails]
        cases c.mode with
        | throw => rintro ⟨s', h⟩; exact ⟨s', .inr ⟨m, h⟩⟩
        | string => rintro ⟨vs, s', h, _⟩; exact ⟨s', .inl ⟨vs, h⟩⟩
        | bool => rintro ⟨vs, s', h, _⟩; exact ⟨s', .inl ⟨vs, h⟩⟩
    · have ⟨hl, hv⟩ : line = [] ∧ ¬ s.spl.err.valid c.mode = true := by
        by_cases hl : line = []
        · exact ⟨hl, fun h => hst (fun _ => h)⟩
        · exact absurd (fun h => absurd h hl) hst
      subst hl
      have : ∃ s', Conv.convertLine c rs delim s = .ok (Conv.defaults rs) s' := by
        unfold Conv.convertLine
        rw [M.bind_of_ok (Conv.split_nil g.holds)]
        simp only [M.get_bind, hv, Bool.false_eq_true, if_false, Conv.handleErrorBadSplit, M.modify_bind, M.pure_apply]
        exact ⟨_, rfl⟩
      obtain ⟨s', h⟩ := this
      exact ⟨s', .inl ⟨_, h⟩⟩
  obtain ⟨s', h⟩ := htot
  refine ⟨s', h, ?_⟩
  by_cases hok : Conv.split c delim s = .ok () { s with spl := sp }
  · rw [hthen hok s' h]; exact hmem sp (.inl hok)
  · cases hsr : splitRes c delim line with
    | ok cols => rw [hsr] at hsp; exact absurd hsp.1 hok
    | error m =>
      rw [hsr] at hsp
      obtain ⟨_, hsp⟩ := hsp
      by_cases ht : c.mode = .throw
      · rw [if_pos ht] at hsp
        have hc : Conv.convertLine c rs delim s = .exc m { s with spl := sp } := by
          unfold Conv.convertLine; rw [M.bind_of_exc hsp.1]
        rw [hc] at h
        rcases h with ⟨vs, h⟩ | ⟨m', h⟩
        · cases h
        · cases h; exact hmem sp (.inr ⟨m, hsp.1⟩)
      · rw [if_neg ht] at hsp; exact absurd hsp.1 hok

example : Given {} (bs ",") (bs "1, 2") (bs "rest") (convOn (bs "1, 2")) ∧ (convOn (bs "1, 2")).spl.escaped = 0 :=
  ⟨given_on (by constructor <;> simp) (by decide), rfl⟩

end Ssp
