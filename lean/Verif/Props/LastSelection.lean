import Verif.Props.Questions
import Verif.Props.ParserGrow
/-!
# The last `use_fields` counts (C78)
-/
namespace Ssp
open Spec

namespace LastSel
open Parser
variable {x : Ctx} {α β : Type}

/-- the column mapping of both converters -/
def setM (sel : List Nat) (n : Nat) (r : Reader) : Reader :=
  { r with
    cur := { r.cur with conv := { r.cur.conv with mappings := sel, ncols := n } }
    next := { r.next with conv := { r.next.conv with mappings := sel, ncols := n } } }

def mapR (f : Reader → Reader) : Res Reader α → Res Reader α
  | .ok a r => .ok a (f r)
  | .exc e r => .exc e (f r)
  | .ub => .ub
  | .nofuel => .nofuel

/-- reading does not look at the column mapping -/
def Cm (sel : List Nat) (n : Nat) (m : M Reader α) : Prop := ∀ r, m (setM sel n r) = mapR (setM sel n) (m r)

variable {sel : List Nat} {n : Nat}

theorem Cm.pure (a : α) : Cm sel n (Pure.pure a : M Reader α) := fun _ => rfl
theorem Cm.ub : Cm sel n (M.ub : M Reader α) := fun _ => rfl
theorem Cm.bind {m : M Reader α} {f : α → M Reader β} (h : Cm sel n m) (hf : ∀ a, Cm sel n (f a)) : Cm sel n (m >>= f) := by
  intro r
  rw [M.bind_apply, M.bind_apply, h r]
  cases m r with
  | ok a t => exact hf a t
  | exc e t => rfl
  | ub => rfl
  | nofuel => rfl
theorem Cm.get {f : Reader → M Reader α} (hf : ∀ s, Cm sel n (f s)) (hi : ∀ s, f (setM sel n s) = f s) : Cm sel n (M.get >>= f) := by
  intro s
  rw [M.get_bind, M.get_bind, hi s]
  exact hf s s
theorem Cm.modify {f : Reader → Reader} (h : ∀ r, f (setM sel n r) = setM sel n (f r)) : Cm sel n (M.modify f) := by
  intro r
  show Res.ok () (f (setM sel n r)) = Res.ok () (setM sel n (f r))
  rw [h]
theorem Cm.ite {p : Prop} [Decidable p] {m k : M Reader α} (hm : Cm sel n m) (hk : Cm sel n k) : Cm sel n (if p then m else k) := by
  split
  · exact hm
  · exact hk

theorem cm_wrNext (p : Nat) (b : Byte) : Cm sel n (Reader.wrNext p b) := by
  intro r
  unfold Reader.wrNext
  show (if p < r.next.conv.spl.mem.length then _ else _) = _
  by_cases h : p < r.next.conv.spl.mem.length
  · rw [if_pos h, if_pos h]; rfl
  · rw [if_neg h, if_neg h]; rfl

theorem cm_getLineNext (x : Ctx) : Cm sel n (Reader.getLineNext x) := by
  intro r
  unfold Reader.getLineNext
  rw [show (setM sel n r).ioNext = r.ioNext from rfl]
  cases Io.getLine x.env x.src r.ioNext <;> rfl

theorem cm_removeEol (k : Nat) : Cm sel n (Reader.removeEolNext k) := by
  unfold Reader.removeEolNext
  refine Cm.get (fun s => ?_) fun _ => rfl
  cases Reader.eolSize s.next.conv.spl.mem k with
  | none => exact Cm.ub
  | some p =>
    obtain ⟨size, crlf⟩ := p
    exact Cm.bind (Cm.modify fun _ => rfl) fun _ => Cm.ite (Cm.pure _) (Cm.bind (cm_wrNext _ _) fun _ => Cm.pure _)

theorem cm_loop (x : Ctx) : ∀ f, Cm sel n (Reader.readNextLoop x f)
  | 0 => fun _ => rfl
  | f + 1 => by
    unfold Reader.readNextLoop
    refine Cm.bind (Cm.modify fun _ => rfl) fun _ => Cm.get (fun s => ?_) fun _ => rfl
    refine Cm.bind (Cm.ite (cm_wrNext _ _) (Cm.pure _)) fun _ => Cm.bind (Cm.modify fun _ => rfl) fun _ => Cm.bind (cm_getLineNext x) fun r => ?_
    cases r with
    | none => exact Cm.pure _
    | some k =>
      refine Cm.bind (cm_removeEol k) fun size => Cm.ite (cm_loop x f) ?_
      exact Cm.bind (Cm.modify fun _ => rfl) fun _ => Cm.pure _

theorem cm_readNext (x : Ctx) : Cm sel n (Reader.readNext x) := by
  unfold Reader.readNext
  exact Cm.bind (fun _ => rfl) fun _ => cm_loop x _

theorem setM_setM (sel sel' : List Nat) (n n' : Nat) (r : Reader) : setM sel n (setM sel' n' r) = setM sel n r := rfl

/-- the fields that are accepted only depend on the header names -/
theorem mapFields_some (all : List Bytes) : ∀ (fs : List Bytes) {s s' t : Parser} {sel : List Nat}, s.header = t.header →
    mapFields x all fs s = .ok (some sel) s' → mapFields x all fs t = .ok (some sel) t ∧ (fs ≠ [] → t.header ≠ [])
  | [], s, s', t, sel, hh, h => by
    have : some [] = some sel := by
      unfold mapFields at h
      cases h
      rfl
    cases this
    exact ⟨rfl, fun e => absurd rfl e⟩
  | f :: fs, s, s', t, sel, hh, h => by
    unfold mapFields at h ⊢
    have bad : ∀ (m : Bytes), (handleError x.cfg m >>= fun _ => (pure none : M Parser (Option (List Nat)))) s ≠ .ok (some sel) s' := by
      intro m e
      unfold handleError at e
      cases hc : x.cfg.mode <;> rw [hc] at e <;> cases e
    by_cases hc : all.count f ≠ 1
    · rw [if_pos hc] at h
      exact absurd h (bad _)
    · rw [if_neg hc] at h ⊢
      rw [M.get_bind] at h ⊢
      have hidx : t.headerIndex f = s.headerIndex f := by
        unfold Parser.headerIndex
        rw [hh]
      rw [hidx]
      cases hi : s.headerIndex f with
      | none => rw [hi] at h; exact absurd h (bad _)
      | some i =>
        rw [hi] at h
        simp only at h ⊢
        rw [M.bind_apply] at h
        cases hm : mapFields x all fs s with
        | ok r s1 =>
          rw [hm] at h
          cases r with
          | none => cases h
          | some is =>
            cases h
            rw [M.bind_of_ok (mapFields_some all fs hh hm).1]
            refine ⟨rfl, fun _ e => ?_⟩
            have : s.headerIndex f = none := by
              unfold Parser.headerIndex
              rw [hh, e]
              rfl
            rw [this] at hi
            cases hi
        | exc _ _ => rw [hm] at h; cases h
        | ub => rw [hm] at h; cases h
        | nofuel => rw [hm] at h; cases h

theorem clear_of_valid {e : ErrSt} {m : ErrMode} (h : e.valid m = true) : e.clear m = e := by
  obtain ⟨msg, flag⟩ := e
  unfold ErrSt.valid at h
  unfold ErrSt.clear
  cases m <;> simp_all

theorem mapFields_none (hm : x.cfg.mode ≠ .throw) (all : List Bytes) : ∀ (fs : List Bytes) {s t : Parser},
    mapFields x all fs s = .ok none t → t.valid x.cfg = false
  | [], s, t, h => by unfold mapFields at h; cases h
  | f :: fs, s, t, h => by
    have bad : ∀ (m : Bytes), m ≠ [] → (handleError x.cfg m >>= fun _ => (pure none : M Parser (Option (List Nat)))) s = .ok none t →
        t.valid x.cfg = false := by
      intro m hne e
      have : t = { s with err := s.err.set x.cfg.mode m } := by
        unfold handleError at e
        cases hc : x.cfg.mode with
        | throw => exact absurd hc hm
        | string => rw [hc] at e; cases e; rfl
        | bool => rw [hc] at e; cases e; rfl
      rw [this]
      exact ErrSt.valid_set hm hne _
    have app : ∀ (a b c : Bytes), b ≠ [] → a ++ b ++ c ≠ [] := fun a b c hb e => hb (List.append_eq_nil_iff.mp (List.append_eq_nil_iff.mp e).1).2
    unfold mapFields at h
    by_cases hc : all.count f ≠ 1
    · rw [if_pos hc] at h
      exact bad _ (app _ _ _ (by decide)) h
    · rw [if_neg hc, M.get_bind] at h
      cases hi : s.headerIndex f with
      | none => rw [hi] at h; exact bad _ (app _ _ _ (by decide)) h
      | some i =>
        rw [hi] at h
        simp only at h
        rw [M.bind_apply] at h
        cases hmf : mapFields x all fs s with
        | ok r s1 =>
          rw [hmf] at h
          cases r with
          | none => cases h; exact mapFields_none hm all fs hmf
          | some is => cases h
        | exc _ _ => rw [hmf] at h; cases h
        | ub => rw [hmf] at h; cases h
        | nofuel => rw [hmf] at h; cases h

theorem mapFields_throw (hm : x.cfg.mode = .throw) (all : List Bytes) : ∀ (fs : List Bytes) {s t : Parser},
    mapFields x all fs s ≠ .ok none t
  | [], s, t, h => by unfold mapFields at h; cases h
  | f :: fs, s, t, h => by
    have bad : ∀ (m : Bytes), (handleError x.cfg m >>= fun _ => (pure none : M Parser (Option (List Nat)))) s ≠ .ok none t := by
      intro m e
      unfold handleError at e
      rw [hm] at e
      cases e
    unfold mapFields at h
    by_cases hc : all.count f ≠ 1
    · rw [if_pos hc] at h
      exact bad _ h
    · rw [if_neg hc, M.get_bind] at h
      cases hi : s.headerIndex f with
      | none => rw [hi] at h; exact bad _ h
      | some i =>
        rw [hi] at h
        simp only at h
        rw [M.bind_apply] at h
        cases hmf : mapFields x all fs s with
        | ok r s1 =>
          rw [hmf] at h
          cases r with
          | none => cases h; exact mapFields_throw hm all fs hmf
          | some is => cases h
        | exc _ _ => rw [hmf] at h; cases h
        | ub => rw [hmf] at h; cases h
        | nofuel => rw [hmf] at h; cases h

/-- what a successful selection does to the parser whose header was split -/
def pick (x : Ctx) (is : List Nat) (s : Parser) : Option Parser :=
  if s.line = 0 then
    match Reader.readNext x s.rd with
    | .ok _ r => some { s with rd := setM is s.header.length r }
    | _ => none
  else some { s with rd := setM is s.header.length s.rd }

/-- behind the splitting of the header: `use_fields` succeeds just if the fields are accepted, and then it selects -/
theorem useTail_ok {fs : List Bytes} {s t : Parser} : (Quest.useTail x fs s = .ok () t ∧ t.valid x.cfg = true) ↔
    s.valid x.cfg = true ∧ fs ≠ [] ∧ ∃ is, mapFields x fs fs s = .ok (some is) s ∧ pick x is s = some t := by
  have hsel : ∀ (is : List Nat), (setMapping is >>= fun _ => M.get >>= fun s => if s.line = 0 then ignoreNext x >>= fun _ => pure () else pure ()) s =
      .ok () t ↔ pick x is s = some t := by
    intro is
    unfold setMapping pick
    rw [M.modify_bind, M.get_bind]
    show ((if s.line = 0 then ignoreNext x >>= fun _ => pure () else pure () : M Parser Unit) { s with rd := setM is s.header.length s.rd }) =
      Res.ok () t ↔ _
    by_cases hl : s.line = 0
    · rw [if_pos hl, if_pos hl]
      have key := cm_readNext (sel := is) (n := s.header.length) x s.rd
      have e : ∀ v : Parser, (ignoreNext x >>= fun _ => pure () : M Parser Unit) v = match Reader.readNext x v.rd with
          | .ok _ r => .ok () { v with rd := r }
          | .exc e r => .exc e { v with rd := r }
          | .ub => .ub
          | .nofuel => .nofuel := by
        intro v
        rw [M.bind_apply]
        unfold ignoreNext onRd
        cases Reader.readNext x v.rd <;> rfl
      rw [e]
      simp only
      rw [key]
      cases Reader.readNext x s.rd with
      | ok a r =>
        simp only [mapR]
        constructor
        · intro h; cases h; rfl
        · intro h; cases h; rfl
      | exc e r => simp only [mapR]; exact ⟨fun h => (by cases h), fun h => (by cases h)⟩
      | ub => simp only [mapR]; exact ⟨fun h => (by cases h), fun h => (by cases h)⟩
      | nofuel => simp only [mapR]; exact ⟨fun h => (by cases h), fun h => (by cases h)⟩
    · rw [if_neg hl, if_neg hl]
      constructor
      · intro h; cases h; rfl
      · intro h; cases h; rfl
  have hval : ∀ (is : List Nat), pick x is s = some t → t.err = s.err := by
    intro is h
    unfold pick at h
    by_cases hl : s.line = 0
    · rw [if_pos hl] at h
      cases hr : Reader.readNext x s.rd <;> rw [hr] at h <;> cases h
      rfl
    · rw [if_neg hl] at h
      cases h
      rfl
  unfold Quest.useTail
  rw [M.get_bind]
  by_cases hv : (!s.valid x.cfg) = true
  · rw [if_pos hv]
    constructor
    · rintro ⟨h, h'⟩
      cases h
      simp [h'] at hv
    · rintro ⟨h, _⟩
      simp [h] at hv
  · rw [if_neg hv]
    have hv' : s.valid x.cfg = true := by simpa using hv
    by_cases he : fs = []
    · rw [if_pos he]
      constructor
      · rintro ⟨h, h'⟩
        exfalso
        unfold handleError at h
        cases hc : x.cfg.mode with
        | throw => rw [hc] at h; cases h
        | string =>
          rw [hc] at h; cases h
          have := ErrSt.valid_set (m := .string) (by simp) (show bs "received invalid argument for 'use_fields'" ≠ [] by decide) s.err
          unfold Parser.valid at h'
          rw [hc] at h'
          rw [this] at h'
          cases h'
        | bool =>
          rw [hc] at h; cases h
          have := ErrSt.valid_set (m := .bool) (by simp) (show bs "received invalid argument for 'use_fields'" ≠ [] by decide) s.err
          unfold Parser.valid at h'
          rw [hc] at h'
          rw [this] at h'
          cases h'
      · rintro ⟨_, h, _⟩
        exact absurd he h
    · rw [if_neg he, M.bind_apply]
      constructor
      · rintro ⟨h, h'⟩
        refine ⟨hv', he, ?_⟩
        cases hm : mapFields x fs fs s with
        | ok r s1 =>
          rw [hm] at h
          cases r with
          | none =>
            exfalso
            have : s1 = t := by cases h; rfl
            subst this
            by_cases hc : x.cfg.mode = .throw
            · exact mapFields_throw hc fs fs hm
            · rw [mapFields_none hc fs fs hm] at h'; cases h'
          | some is =>
            have h1 := (mapFields_some fs fs (t := s) rfl hm).1
            have h2 := hm.symm.trans h1
            cases h2
            exact ⟨is, rfl, (hsel is).mp h⟩
        | exc _ _ => rw [hm] at h; cases h
        | ub => rw [hm] at h; cases h
        | nofuel => rw [hm] at h; cases h
      · rintro ⟨_, _, is, h1, h2⟩
        rw [h1]
        refine ⟨(hsel is).mpr h2, ?_⟩
        unfold Parser.valid
        rw [hval is h2]
        exact hv'

theorem pick_facts {is : List Nat} {s t : Parser} (h : pick x is s = some t) : t.err = s.err ∧ t.header = s.header ∧ t.eof = s.eof := by
  unfold pick at h
  by_cases hl : s.line = 0
  · rw [if_pos hl] at h
    cases hr : Reader.readNext x s.rd <;> rw [hr] at h <;> cases h
    exact ⟨rfl, rfl, rfl⟩
  · rw [if_neg hl] at h
    cases h
    exact ⟨rfl, rfl, rfl⟩

/-- selecting twice, and selecting once -/
theorem pick_pick {is js : List Nat} {s t u : Parser} (h : pick x is s = some t) (hl : t.line ≠ 0) : pick x js t = some u ↔ pick x js s = some u := by
  have hf := pick_facts h
  unfold pick
  rw [if_neg hl]
  unfold pick at h
  by_cases hs : s.line = 0
  · rw [if_pos hs] at h ⊢
    cases hr : Reader.readNext x s.rd with
    | ok a r =>
      rw [hr] at h
      cases h
      rfl
    | exc _ _ => rw [hr] at h; cases h
    | ub => rw [hr] at h; cases h
    | nofuel => rw [hr] at h; cases h
  · rw [if_neg hs] at h ⊢
    cases h
    rfl

theorem useFields_eq (fs : List Bytes) (s : Parser) : useFields x fs s =
    (splitHeaderDataIf x (fun s => s.header.isEmpty && !s.eof) >>= fun _ => Quest.useTail x fs) { s with err := s.err.clear x.cfg.mode } := rfl

theorem useFields_twice {fs gs : List Bytes} {s t u : Parser} (h1 : useFields x fs s = .ok () t) (hv : t.valid x.cfg = true) (hl : t.line ≠ 0) :
    (useFields x gs t = .ok () u ∧ u.valid x.cfg = true) ↔ (useFields x gs s = .ok () u ∧ u.valid x.cfg = true) := by
  rw [useFields_eq, M.bind_apply] at h1
  rw [useFields_eq gs s, M.bind_apply]
  cases hs : splitHeaderDataIf x (fun s => s.header.isEmpty && !s.eof) { s with err := s.err.clear x.cfg.mode } with
  | ok a s1 =>
    rw [hs] at h1
    obtain ⟨v1, hne, is, m1, k1⟩ := useTail_ok.mp ⟨h1, hv⟩
    obtain ⟨e1, e2, e3⟩ := pick_facts k1
    have hh : t.header ≠ [] := by rw [e2]; exact (mapFields_some fs fs (t := s1) rfl m1).2 hne
    have ht : useFields x gs t = Quest.useTail x gs t := by
      rw [useFields_eq, show ({ t with err := t.err.clear x.cfg.mode } : Parser) = t by rw [clear_of_valid hv], M.bind_apply]
      unfold splitHeaderDataIf
      rw [if_neg (by simp [hh])]
    rw [ht]
    show _ ↔ Quest.useTail x gs s1 = .ok () u ∧ _
    rw [useTail_ok, useTail_ok]
    constructor
    · rintro ⟨_, h2, js, h3, h4⟩
      exact ⟨v1, h2, js, (mapFields_some gs gs e2 h3).1, (pick_pick k1 hl).mp h4⟩
    · rintro ⟨_, h2, js, h3, h4⟩
      exact ⟨hv, h2, js, (mapFields_some gs gs e2.symm h3).1, (pick_pick k1 hl).mpr h4⟩
  | exc _ _ => rw [hs] at h1; cases h1
  | ub => rw [hs] at h1; cases h1
  | nofuel => rw [hs] at h1; cases h1

theorem step_use {fs : List Bytes} {s t : Parser} {o : Obs} : (step x (.useFields fs) s = some (o, t) ∧ o.ret = .unit) ↔
    useFields x fs s = .ok () t ∧ o = observe x .unit t := by
  unfold step
  show (match (useFields x fs >>= fun _ => pure Ret.unit) s with
    | .ok r s' => some (observe x r s', s') | .exc e s' => some (observe x (.thrown e) s', s') | .ub => none | .nofuel => none) = _ ∧ _ ↔ _
  rw [M.bind_apply]
  cases useFields x fs s with
  | ok a u =>
    constructor
    · rintro ⟨h, _⟩; cases h; exact ⟨rfl, rfl⟩
    · rintro ⟨h, rfl⟩; cases h; exact ⟨rfl, rfl⟩
  | exc e u =>
    constructor
    · rintro ⟨h, h'⟩; cases h; cases h'
    · rintro ⟨h, _⟩; cases h
  | ub =>
    constructor
    · rintro ⟨h, _⟩; cases h
    · rintro ⟨h, _⟩; cases h
  | nofuel =>
    constructor
    · rintro ⟨h, _⟩; cases h
    · rintro ⟨h, _⟩; cases h

end LastSel

/-- the call `use_fields` succeeded -/
def Obs.Selected (o : Obs) : Prop := o.ret = .unit ∧ o.valid = true

/-- C78: after a successful `use_fields(fs...)`, another `use_fields(gs...)` succeeds, and everything observed from then on, of any
sequence of calls, is as if `use_fields(fs...)` had never been called.  (`line()` is not 0 behind a successful `use_fields` of a
parser that has an input: `C78_line`.) -/
theorem C78_last_selection_counts {x : Ctx} {s t : Parser} {fs gs : List Bytes} {o1 o2 : Obs}
    (h1 : Parser.step x (.useFields fs) s = some (o1, t)) (hs1 : o1.Selected) (hl : o1.line ≠ 0) (hs2 : o2.Selected)
    (ops : List Op) (os : List Obs) (u : Parser) :
    Parser.run x (.useFields fs :: .useFields gs :: ops) s = some (o1 :: o2 :: os, u) ↔
      Parser.run x (.useFields gs :: ops) s = some (o2 :: os, u) := by
  obtain ⟨k1, rfl⟩ := LastSel.step_use.mp ⟨h1, hs1.1⟩
  have hone : ∀ (v : Parser), Parser.run x (.useFields gs :: ops) v = some (o2 :: os, u) ↔
      ∃ w, (Parser.useFields x gs v = .ok () w ∧ w.valid x.cfg = true) ∧ o2 = Parser.observe x .unit w ∧ Parser.run x ops w = some (os, u) := by
    intro v
    show (match Parser.step x (.useFields gs) v with | none => none | some (o, s') => match Parser.run x ops s' with | none => none | some (os, s'') => some (o :: os, s'')) = _ ↔ _
    constructor
    · intro h
      cases hst : Parser.step x (.useFields gs) v with
      | none => rw [hst] at h; cases h
      | some p =>
        obtain ⟨o, w⟩ := p
        rw [hst] at h
        simp only at h
        cases hr : Parser.run x ops w with
        | none => rw [hr] at h; cases h
        | some q =>
          obtain ⟨os', u'⟩ := q
          rw [hr] at h
          cases h
          obtain ⟨k2, rfl⟩ := LastSel.step_use.mp ⟨hst, hs2.1⟩
          exact ⟨w, ⟨k2, hs2.2⟩, rfl, hr⟩
    · rintro ⟨w, ⟨h2, h3⟩, rfl, h4⟩
      rw [(LastSel.step_use.mpr ⟨h2, rfl⟩).1]
      simp only
      rw [h4]
  have hfirst : Parser.run x (.useFields fs :: .useFields gs :: ops) s = some (Parser.observe x .unit t :: o2 :: os, u) ↔
      Parser.run x (.useFields gs :: ops) t = some (o2 :: os, u) := by
    show (match Parser.step x (.useFields fs) s with | none => none | some (o, s') => match Parser.run x (.useFields gs :: ops) s' with | none => none | some (os, s'') => some (o :: os, s'')) = _ ↔ _
    rw [h1]
    simp only
    cases Parser.run x (.useFields gs :: ops) t with
    | none => exact ⟨fun h => (by cases h), fun h => (by cases h)⟩
    | some q =>
      obtain ⟨os', u'⟩ := q
      constructor
      · intro h; cases h; rfl
      · intro h; cases h; rfl
  rw [hfirst, hone, hone]
  constructor
  · rintro ⟨w, hw, h⟩
    exact ⟨w, (LastSel.useFields_twice k1 hs1.2 hl).mp hw, h⟩
  · rintro ⟨w, hw, h⟩
    exact ⟨w, (LastSel.useFields_twice k1 hs1.2 hl).mpr hw, h⟩

namespace LastSel
open Parser

theorem grown_self {x : Ctx} (he : ∀ n, x.src ≠ .buf none n) (hf : x.src.Fine) : x.src.Grown x.src := by
  cases hs : x.src with
  | file u d => have := @Src.Grown.file u d []; rwa [List.append_nil] at this
  | buf p n =>
    cases p with
    | none => exact absurd hs (he n)
    | some d =>
      rw [hs] at hf
      have := @Src.Grown.buf d []
      rw [List.append_nil] at this
      have e : n = d.length := hf
      rw [e]
      exact this

theorem readNext_counts {x : Ctx} (hg : x.src.Grown x.src) (hf : x.src.Fine) {s t : Reader} {b : Bool} (hs : (Reader.world x).I s)
    (h : Reader.readNext x s = .ok b t) : s.lineNumber < t.lineNumber := by
  obtain ⟨u, s1, h1, h2⟩ := bind_ok_inv h
  obtain ⟨i1, i2⟩ := ((Reader.quiet_onNext (Conv.keep_clearError x.cfg)).ok _ _ _ h1).step (x := x) hs
  have := (Reader.readNextLoop_grow hg hf _ _ (Nat.le_refl _) s1 t b i1 h2).2.2.1
  exact Nat.lt_of_le_of_lt i2.2 this

theorem readLine_counts {x : Ctx} (hg : x.src.Grown x.src) (hf : x.src.Fine) {s t : Parser} (hs : (Parser.world x).I s)
    (h : readLine x s = .ok () t) : s.rd.lineNumber < t.rd.lineNumber := by
  have h : (onRd (Reader.readNext x) >>= fun b => M.modify fun s => { s with eof := !b }) s = .ok () t := h
  rw [M.bind_apply] at h
  unfold onRd at h
  cases hr : Reader.readNext x s.rd with
  | ok b r =>
    have := readNext_counts hg hf hs.1 hr
    rw [hr] at h
    cases h
    exact this
  | exc _ _ => rw [hr] at h; cases h
  | ub => rw [hr] at h; cases h
  | nofuel => rw [hr] at h; cases h

theorem firstLine_counts {x : Ctx} (hg : x.src.Grown x.src) (hf : x.src.Fine) {s : Parser} (h : firstLine x {} = .ok () s) :
    (Parser.world x).I s ∧ 0 < s.rd.lineNumber := by
  obtain ⟨i1, i2, _⟩ := (ext_firstLine hg hf).ok _ world_start _ _ h
  refine ⟨i1, ?_⟩
  obtain ⟨u, s1, h1, h2⟩ := bind_ok_inv h
  have c1 := readLine_counts hg hf world_start h1
  obtain ⟨j1, j2, _⟩ := (ext_readLine hg hf).ok _ world_start _ _ h1
  have rest : (Parser.world x).Ext (Parser.world x).P (Parser.world x).P
      (if x.cfg.ignoreHeader then ignoreNext x >>= fun _ => pure () else onRd Reader.getBuffer >>= fun b => M.modify fun s => { s with rawHeader := b })
      (if x.cfg.ignoreHeader then ignoreNext { x with src := x.src } >>= fun _ => pure () else onRd Reader.getBuffer >>= fun b => M.modify fun s => { s with rawHeader := b }) := by
    refine World.Ext.ite (World.Ext.bindP (ext_ignoreNext hg hf) fun _ => World.Ext.pure _) ?_
    exact World.Ext.bindP (ext_quiet (quiet_onRd (Reader.still_getBuffer (Q := True)))) fun b => ext_quiet (Relates.modify (Q := True) fun _ => quiet_same rfl rfl)
  obtain ⟨_, k2, _⟩ := rest.ok _ j1 _ _ h2
  exact Nat.lt_of_lt_of_le c1 k2.2

theorem created_counts {x : Ctx} (he : ∀ n, x.src ≠ .buf none n) (hf : x.src.Fine) {s : Parser} (h : Created x s) :
    (Parser.world x).I s ∧ 0 < s.rd.lineNumber := by
  have hg := grown_self he hf
  cases h with
  | file hs hn => unfold newFile at hn; rw [hs] at hn; exact firstLine_counts hg hf hn
  | missing hs => exact absurd hs (he 0)
  | buffer hs hn =>
    rename_i p n
    cases p with
    | none => exact absurd hs (he n)
    | some d => unfold newBuffer at hn; rw [hs] at hn; exact firstLine_counts hg hf hn

end LastSel

/-- C78: the line is counted.  After any calls, behind a successful `use_fields` at least the header line lies behind the parser. -/
theorem C78_line {x : Ctx} (he : x.src.Exists) (hf : x.src.Fine) {s0 s t : Parser} (h0 : Parser.Created x s0) {ops : List Op}
    {os : List Obs} (hr : Parser.run x ops s0 = some (os, s)) {fs : List Bytes} {o : Obs}
    (h : Parser.step x (.useFields fs) s = some (o, t)) (hs : o.Selected) : o.line ≠ 0 := by
  have he : ∀ n, x.src ≠ .buf none n := fun n e => by rw [e] at he; exact he rfl
  have hg := LastSel.grown_self he hf
  obtain ⟨i0, l0⟩ := LastSel.created_counts he hf h0
  obtain ⟨i1, l1, _⟩ := Parser.run_grow hg hf ops i0 hr
  have l2 : 0 < s.rd.lineNumber := Nat.lt_of_lt_of_le l0 l1.2
  obtain ⟨k1, rfl⟩ := LastSel.step_use.mp ⟨h, hs.1⟩
  rw [LastSel.useFields_eq, M.bind_apply] at k1
  cases hsp : Parser.splitHeaderDataIf x (fun s => s.header.isEmpty && !s.eof) { s with err := s.err.clear x.cfg.mode } with
  | ok a s1 =>
    rw [hsp] at k1
    obtain ⟨_, _, is, _, k3⟩ := LastSel.useTail_ok.mp ⟨k1, hs.2⟩
    obtain ⟨j1, j2, _⟩ := (Parser.ext_quiet (x := x) (D := fun _ => True) (E := fun _ => True) (Parser.quiet_splitHeaderDataIf x _)).ok
      { s with err := s.err.clear x.cfg.mode } i1 _ _ hsp
    have l3 : 0 < s1.rd.lineNumber := Nat.lt_of_lt_of_le l2 j2.2
    show t.line ≠ 0
    unfold LastSel.pick at k3
    by_cases hl : s1.line = 0
    · rw [if_pos hl] at k3
      cases hrd : Reader.readNext x s1.rd with
      | ok b r =>
        have := LastSel.readNext_counts hg hf j1.1 hrd
        rw [hrd] at k3
        cases k3
        show (if r.lineNumber > 0 then r.lineNumber - 1 else r.lineNumber) ≠ 0
        rw [if_pos (by omega)]
        omega
      | exc _ _ => rw [hrd] at k3; cases k3
      | ub => rw [hrd] at k3; cases k3
      | nofuel => rw [hrd] at k3; cases k3
    · rw [if_neg hl] at k3
      cases k3
      exact hl
  | exc _ _ => rw [hsp] at k1; cases k1
  | ub => rw [hsp] at k1; cases k1
  | nofuel => rw [hsp] at k1; cases k1

namespace Demo

/-- C78 at work: the first selection and what it did are forgotten -/
theorem C78_twice :
    ((runs cs "a,b,c\n1,2,3\n4,5,6\n" [.useFields [bs "c"], .useFields [bs "b", bs "a"], .getNext [num, num], .getNext [num]]).map
        fun o => (o.ret, o.valid, o.line)) =
      [(.unit, true, 1), (.unit, true, 1), (.row (some [.int 2, .int 1]), true, 2), (.row none, false, 3)] ∧
    ((runs cs "a,b,c\n1,2,3\n4,5,6\n" [.useFields [bs "b", bs "a"], .getNext [num, num], .getNext [num]]).map
        fun o => (o.ret, o.valid, o.line)) =
      [(.unit, true, 1), (.row (some [.int 2, .int 1]), true, 2), (.row none, false, 3)] := by
  decide +kernel

/-- the hypotheses of C78 and `C78_line` are met -/
theorem C78_meets : ∃ s t o1 o2, Parser.Created (ctx cs "a,b,c\n1,2,3\n4,5,6\n") s ∧
    Parser.step (ctx cs "a,b,c\n1,2,3\n4,5,6\n") (.useFields [bs "c"]) s = some (o1, t) ∧ o1.Selected ∧ o1.line ≠ 0 ∧ o2.Selected ∧
    ∃ u, Parser.run (ctx cs "a,b,c\n1,2,3\n4,5,6\n") [.useFields [bs "c"], .useFields [bs "b", bs "a"]] s = some ([o1, o2], u) := by
  have h1 : (Parser.run (ctx cs "a,b,c\n1,2,3\n4,5,6\n") [.useFields [bs "c"], .useFields [bs "b", bs "a"]]
      (start cs "a,b,c\n1,2,3\n4,5,6\n")).map (fun p => p.1.map fun o => (o.ret, o.valid, o.line)) = some [(.unit, true, 1), (.unit, true, 1)] := by
    decide +kernel
  cases hr : Parser.run (ctx cs "a,b,c\n1,2,3\n4,5,6\n") [.useFields [bs "c"], .useFields [bs "b", bs "a"]] (start cs "a,b,c\n1,2,3\n4,5,6\n") with
  | none => rw [hr] at h1; cases h1
  | some p =>
    obtain ⟨os, u⟩ := p
    rw [hr] at h1
    have hr' := hr
    unfold Parser.run at hr
    cases hs : Parser.step (ctx cs "a,b,c\n1,2,3\n4,5,6\n") (.useFields [bs "c"]) (start cs "a,b,c\n1,2,3\n4,5,6\n") with
    | none => rw [hs] at hr; cases hr
    | some q =>
      obtain ⟨o1, t⟩ := q
      rw [hs] at hr
      simp only at hr
      cases hs2 : Parser.run (ctx cs "a,b,c\n1,2,3\n4,5,6\n") [.useFields [bs "b", bs "a"]] t with
      | none => rw [hs2] at hr; cases hr
      | some q2 =>
        obtain ⟨os2, u2⟩ := q2
        rw [hs2] at hr
        cases hr
        have h1 : (o1.ret, o1.valid, o1.line) :: os2.map (fun o => (o.ret, o.valid, o.line)) = [(.unit, true, 1), (.unit, true, 1)] :=
          Option.some.inj h1
        injection h1 with a h1
        have a1 := congrArg Prod.fst a
        have a2 := congrArg (fun p => p.2.1) a
        have a3 : o1.line = 1 := congrArg (fun p => p.2.2) a
        have hl : o1.line ≠ 0 := by rw [a3]; decide
        cases os2 with
        | nil => cases h1
        | cons o2 os3 =>
          injection h1 with b h1
          have b1 := congrArg Prod.fst b
          have b2 := congrArg (fun p => p.2.1) b
          cases os3 with
          | cons _ _ => cases h1
          | nil => exact ⟨_, t, o1, o2, created cs_wf rfl _, hs, ⟨a1, a2⟩, hl, ⟨b1, b2⟩, _, hr'⟩

end Demo
end Ssp
