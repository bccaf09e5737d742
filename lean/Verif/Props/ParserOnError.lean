import Verif.Props.ParserChain
import Verif.Proofs.Views
/-!
# Chains with `on_error` (C56)
-/
namespace Ssp

namespace Parser

/-- the alternatives of a chain -/
def Link.alts : List Link → List Alt
  | [] => []
  | .orElse a :: ls => a :: alts ls
  | .onError :: ls => alts ls

/-- the optionals of a chain -/
def LinkOut.opts : List LinkOut → List (Option (List Val) × Bool)
  | [] => []
  | .opt v b :: os => (v, b) :: opts os
  | .err _ :: os => opts os

/-- one of the optionals is engaged -/
def LinkOut.Engaged (os : List LinkOut) : Prop := ∃ v b, LinkOut.opt (some v) b ∈ os

end Parser

def Res.mapVal {σ α β : Type} (f : α → β) : Res σ α → Res σ β
  | .ok a s => .ok (f a) s
  | .exc m s => .exc m s
  | .ub => .ub
  | .nofuel => .nofuel

open Parser

theorem links_opts (x : Ctx) : ∀ (ls : List Link) (s : Parser),
    (links x ls s).mapVal LinkOut.opts = orElses x (Link.alts ls) s
  | [], s => rfl
  | .orElse a :: ls, s => by
    show Res.mapVal _ ((orElse x a >>= fun r => links x ls >>= fun rest => pure (.opt r.1 r.2 :: rest)) s) =
      (orElse x a >>= fun r => orElses x (Link.alts ls) >>= fun rest => pure (r :: rest)) s
    cases h : orElse x a s with
    | ok r s1 =>
      rw [M.bind_of_ok h, M.bind_of_ok h]
      have ih := links_opts x ls s1
      cases h2 : links x ls s1 with
      | ok rest s2 =>
        rw [h2] at ih
        rw [M.bind_of_ok h2, M.bind_of_ok (ih.symm)]
        rfl
      | exc m s2 => rw [h2] at ih; simp only [Bind.bind, M.bind, h2, ← ih, Res.mapVal]
      | ub => rw [h2] at ih; simp only [Bind.bind, M.bind, h2, ← ih, Res.mapVal]
      | nofuel => rw [h2] at ih; simp only [Bind.bind, M.bind, h2, ← ih, Res.mapVal]
    | exc m s1 => simp only [Bind.bind, M.bind, h, Res.mapVal]
    | ub => simp only [Bind.bind, M.bind, h, Res.mapVal]
    | nofuel => simp only [Bind.bind, M.bind, h, Res.mapVal]
  | .onError :: ls, s => by
    have ih := links_opts x ls s
    show Res.mapVal _ ((onError x >>= fun r => links x ls >>= fun rest => pure (.err r :: rest)) s) = orElses x (Link.alts ls) s
    rw [M.bind_of_ok (show onError x s = .ok _ s from rfl), ← ih]
    cases h2 : links x ls s with
    | ok rest s2 => rw [M.bind_of_ok h2]; rfl
    | exc m s2 => simp only [Bind.bind, M.bind, h2, Res.mapVal]
    | ub => simp only [Bind.bind, M.bind, h2, Res.mapVal]
    | nofuel => simp only [Bind.bind, M.bind, h2, Res.mapVal]

/-- C56: `on_error` takes no part in the conversions: a chain with `on_error`s has the outcome (values, callbacks, state of
the parser) of the chain without them. -/
theorem C56_on_error_is_transparent (x : Ctx) (a : Alt) (ls : List Link) (s : Parser) :
    (tryLinks x a ls s).mapVal LinkOut.opts = tryChain x a (Link.alts ls) s := by
  show Res.mapVal _ ((tryNext x a >>= fun r => links x ls >>= fun rest => pure (.opt r.1 r.2 :: rest)) s) =
      (tryNext x a >>= fun r => orElses x (Link.alts ls) >>= fun rest => pure (r :: rest)) s
  cases h : tryNext x a s with
  | ok r s1 =>
    rw [M.bind_of_ok h, M.bind_of_ok h]
    have ih := links_opts x ls s1
    cases h2 : links x ls s1 with
    | ok rest s2 =>
      rw [h2] at ih
      rw [M.bind_of_ok h2, M.bind_of_ok (ih.symm)]
      rfl
    | exc m s2 => rw [h2] at ih; simp only [Bind.bind, M.bind, h2, ← ih, Res.mapVal]
    | ub => rw [h2] at ih; simp only [Bind.bind, M.bind, h2, ← ih, Res.mapVal]
    | nofuel => rw [h2] at ih; simp only [Bind.bind, M.bind, h2, ← ih, Res.mapVal]
  | exc m s1 => simp only [Bind.bind, M.bind, h, Res.mapVal]
  | ub => simp only [Bind.bind, M.bind, h, Res.mapVal]
  | nofuel => simp only [Bind.bind, M.bind, h, Res.mapVal]

theorem tryNext_valid_iff {x : Ctx} {a : Alt} {s s' : Parser} {r : Option (List Val) × Bool} (h : tryNext x a s = .ok r s') :
    s'.valid x.cfg = true ↔ r.1.isSome = true := by
  obtain ⟨v, s1, _, h⟩ := Conv.ok_bind_ok h
  obtain ⟨_, _, h1, h⟩ := Conv.ok_bind_ok h
  cases h1
  by_cases hv : s1.valid x.cfg = true
  · rw [if_pos hv] at h
    obtain ⟨c, s2, _, h⟩ := Conv.ok_bind_ok h
    obtain ⟨_, _, h1, h⟩ := Conv.ok_bind_ok h
    cases h1
    cases h
    by_cases hv2 : s'.valid x.cfg = true <;> simp [hv2]
  · rw [if_neg hv] at h
    cases h
    simp [hv]

theorem orElse_valid_iff {x : Ctx} {a : Alt} {s s' : Parser} {r : Option (List Val) × Bool} (h : orElse x a s = .ok r s') :
    s'.valid x.cfg = true ↔ s.valid x.cfg = true ∨ r.1.isSome = true := by
  obtain ⟨_, _, h1, h⟩ := Conv.ok_bind_ok h
  cases h1
  by_cases hv0 : s.valid x.cfg = true
  · rw [if_pos hv0] at h
    cases h
    simp [hv0]
  · rw [if_neg hv0] at h
    obtain ⟨v, s1, _, h⟩ := Conv.ok_bind_ok h
    obtain ⟨_, _, h1, h⟩ := Conv.ok_bind_ok h
    cases h1
    by_cases hv : s1.valid x.cfg = true
    · rw [if_pos hv] at h
      obtain ⟨c, s2, _, h⟩ := Conv.ok_bind_ok h
      obtain ⟨_, _, h1, h⟩ := Conv.ok_bind_ok h
      cases h1
      cases h
      by_cases hv2 : s'.valid x.cfg = true <;> simp [hv2, hv0]
    · rw [if_neg hv] at h
      cases h
      simp [hv, hv0]

theorem engaged_cons_opt {v : Option (List Val)} {b : Bool} {os : List LinkOut} :
    LinkOut.Engaged (.opt v b :: os) ↔ v.isSome = true ∨ LinkOut.Engaged os := by
  unfold LinkOut.Engaged
  constructor
  · rintro ⟨v', b', h⟩
    rcases List.mem_cons.mp h with h | h
    · cases h; exact .inl rfl
    · exact .inr ⟨v', b', h⟩
  · rintro (h | ⟨v', b', h⟩)
    · obtain ⟨v', rfl⟩ := Option.isSome_iff_exists.mp h
      exact ⟨v', b, by simp⟩
    · exact ⟨v', b', by simp [h]⟩

theorem engaged_cons_err {c : Option Bytes} {os : List LinkOut} : LinkOut.Engaged (.err c :: os) ↔ LinkOut.Engaged os := by
  unfold LinkOut.Engaged
  simp

theorem links_error {x : Ctx} : ∀ {ls : List Link} {s s' : Parser} {os : List LinkOut}, links x ls s = .ok os s' →
    ∀ {i : Nat} {c : Option Bytes}, os[i]? = some (.err c) →
      (c.isSome = true ↔ s.valid x.cfg = false ∧ ¬ LinkOut.Engaged (os.take i)) ∧
      ∀ m, c = some m → ∃ s1, links x (ls.take i) s = .ok (os.take i) s1 ∧ s1.err.msg = m ∧ s1.valid x.cfg = false
  | [], s, s', os, h, i, c, hi => by cases h; simp at hi
  | .orElse a :: ls, s, s', os, h, i, c, hi => by
    obtain ⟨r, s1, h1, h⟩ := Conv.ok_bind_ok h
    obtain ⟨rest, s2, h2, h⟩ := Conv.ok_bind_ok h
    cases h
    cases i with
    | zero => simp at hi
    | succ i =>
      obtain ⟨k1, k2⟩ := links_error h2 (i := i) (c := c) (by simpa using hi)
      rw [List.take_succ_cons, engaged_cons_opt]
      refine ⟨k1.trans ?_, fun m hm => ?_⟩
      · have := orElse_valid_iff h1
        rw [← Bool.not_eq_true, ← Bool.not_eq_true, this]
        constructor
        · rintro ⟨a1, a2⟩; exact ⟨fun h => a1 (.inl h), fun h => h.elim (fun h => a1 (.inr h)) a2⟩
        · rintro ⟨a1, a2⟩; exact ⟨fun h => h.elim a1 fun h => a2 (.inl h), fun h => a2 (.inr h)⟩
      · obtain ⟨s3, k3, k4⟩ := k2 m hm
        refine ⟨s3, ?_, k4⟩
        rw [List.take_succ_cons]
        show (orElse x a >>= fun r => links x (ls.take i) >>= fun rest => pure (.opt r.1 r.2 :: rest)) s = _
        rw [M.bind_of_ok h1, M.bind_of_ok k3]
        rfl
  | .onError :: ls, s, s', os, h, i, c, hi => by
    obtain ⟨r, s1, h1, h⟩ := Conv.ok_bind_ok h
    obtain ⟨rest, s2, h2, h⟩ := Conv.ok_bind_ok h
    cases h
    cases h1
    cases i with
    | zero =>
      simp at hi
      subst hi
      by_cases hv : s.valid x.cfg = true
      · simp [hv]
      · rw [if_neg hv]
        refine ⟨by simp [hv, LinkOut.Engaged], ?_⟩
        intro m hm
        cases hm
        exact ⟨s, rfl, rfl, by simpa using hv⟩
    | succ i =>
      obtain ⟨k1, k2⟩ := links_error h2 (i := i) (c := c) (by simpa using hi)
      rw [List.take_succ_cons, engaged_cons_err]
      refine ⟨k1, fun m hm => ?_⟩
      obtain ⟨s3, k3, k4⟩ := k2 m hm
      refine ⟨s3, ?_, k4⟩
      rw [List.take_succ_cons]
      show (onError x >>= fun r => links x (ls.take i) >>= fun rest => pure (.err r :: rest)) s = _
      rw [M.bind_of_ok (show onError x s = .ok _ s from rfl), M.bind_of_ok k3]
      rfl

/-- C56: in a chain `try_next(...)` followed by any `or_else`s and `on_error`s, the callback of an `on_error` is called
exactly if none of the optionals before it is engaged; and it is given the text that `error_msg()` has at that point, that is
behind the chain cut off there. -/
theorem C56_on_error_called_iff {x : Ctx} {a : Alt} {ls : List Link} {s s' : Parser} {os : List LinkOut}
    (h : tryLinks x a ls s = .ok os s') {i : Nat} {c : Option Bytes} (hi : os[i]? = some (.err c)) :
    (c.isSome = true ↔ ¬ LinkOut.Engaged (os.take i)) ∧
    ∀ m, c = some m → ∃ s1, tryLinks x a (ls.take (i - 1)) s = .ok (os.take i) s1 ∧ s1.err.msg = m ∧ s1.valid x.cfg = false := by
  obtain ⟨r, s1, h1, h⟩ := Conv.ok_bind_ok h
  obtain ⟨rest, s2, h2, h⟩ := Conv.ok_bind_ok h
  cases h
  cases i with
  | zero => simp at hi
  | succ i =>
    obtain ⟨k1, k2⟩ := links_error h2 (i := i) (c := c) (by simpa using hi)
    rw [List.take_succ_cons, engaged_cons_opt]
    refine ⟨k1.trans ?_, fun m hm => ?_⟩
    · have := tryNext_valid_iff h1
      rw [← Bool.not_eq_true, this]
      constructor
      · rintro ⟨a1, a2⟩; exact fun h => h.elim a1 a2
      · intro a1; exact ⟨fun h => a1 (.inl h), fun h => a1 (.inr h)⟩
    · obtain ⟨s3, k3, k4⟩ := k2 m hm
      refine ⟨s3, ?_, k4⟩
      show (tryNext x a >>= fun r => links x (ls.take i) >>= fun rest => pure (.opt r.1 r.2 :: rest)) s = _
      rw [M.bind_of_ok h1, M.bind_of_ok k3]
      rfl

open Demo in
/-- the row is no number: the first callback is called, the second conversion succeeds, the second callback is not called -/
example : (match tryLinks (ctx cs "a\n1\n") ⟨[num], none⟩ [.onError, .orElse ⟨[str], none⟩, .onError] (start cs "a\n1\n") with
      | .ok os _ => some os
      | _ => none) =
    some [.opt none false, .err (some (bs "f 1: invalid conversion for parameter at column 1: 'a'")), .opt (some [.str (bs "a")]) false,
      .err none] := by
  decide +kernel

end Ssp
