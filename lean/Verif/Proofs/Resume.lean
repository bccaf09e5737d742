import Verif.Spec.Resume
import Verif.Props.Callback
import Verif.Props.ParserMultiline
/-!
# Two parsers in front of the same text
-/
namespace Ssp
open Spec

/-! ## lines -/

theorem upToLF_append_lf {l : Bytes} (r : Bytes) (h : rawLines l = [l]) (hl : l.getLast? = some LF) :
    rawLines (l ++ r) = l :: rawLines r := by
  induction l with
  | nil => simp at hl
  | cons b l ih =>
    by_cases hb : b = LF
    · subst hb
      rw [rawLines, if_pos rfl] at h
      have h1 : l = [] := by
        have := congrArg (List.headD · []) h
        simpa using this
      subst h1
      simp [rawLines]
    · have hne : l ≠ [] := by rintro rfl; simp at hl; exact hb hl
      have hl' : l.getLast? = some LF := by
        rw [List.getLast?_cons] at hl
        cases h2 : l.getLast? with
        | none => rw [List.getLast?_eq_none_iff] at h2; exact absurd h2 hne
        | some c => rw [h2] at hl; simpa using hl
      have h3 : rawLines l = [l] := by
        rw [rawLines, if_neg hb] at h
        cases h4 : rawLines l with
        | nil => have := rawLines_flatten l; rw [h4] at this; exact absurd this.symm hne
        | cons a as =>
          rw [h4] at h
          simp at h
          rw [h.1, h.2]
      rw [List.cons_append, rawLines, if_neg hb, ih h3 hl']

/-- the lines behind some of the lines are those of the text behind them -/
theorem rawLines_drop (d : Bytes) : ∀ n, rawLines (((rawLines d).drop n).flatten) = (rawLines d).drop n := by
  intro n
  induction n generalizing d with
  | zero => rw [List.drop_zero, rawLines_flatten]
  | succ n ih =>
    by_cases hd : d = []
    · subst hd; simp [rawLines]
    · rw [rawLines_cons hd, List.drop_succ_cons]
      exact ih _

theorem lines_drop {x y : Ctx} {n n' : Nat} (h : (rawLines x.src.data).drop n = (rawLines y.src.data).drop n') :
    (lines x.src.data).drop n = (lines y.src.data).drop n' := by
  unfold lines
  rw [← List.map_drop, ← List.map_drop, h]

theorem drop_more {α : Type} {a b : List α} {n n' : Nat} (h : a.drop n = b.drop n') (k : Nat) : a.drop (n + k) = b.drop (n' + k) := by
  rw [← List.drop_drop, ← List.drop_drop, h]

theorem length_drop_eq {α : Type} {a b : List α} {n n' : Nat} (h : a.drop n = b.drop n') (k : Nat) :
    n + k < a.length ↔ n' + k < b.length := by
  have := congrArg List.length h
  simp only [List.length_drop] at this
  omega

/-- two places where a row is, with the same rows from there on, are the same -/
theorem same_place {α : Type} {p : α → Bool} {D : List α} {j j' : Nat} {a a' : α} (h : (D.drop j).filter p = (D.drop j').filter p)
    (h1 : D[j]? = some a) (h2 : p a = true) (h1' : D[j']? = some a') (h2' : p a' = true) : j = j' := by
  have key : ∀ {j j' : Nat} {a : α}, (D.drop j).filter p = (D.drop j').filter p → D[j]? = some a → p a = true → ¬ j < j' := by
    intro j j' a h h1 h2 hlt
    have h3 : D.drop j = a :: D.drop (j + 1) := by
      rw [List.getElem?_eq_some_iff] at h1
      obtain ⟨hj, h1⟩ := h1
      rw [List.drop_eq_getElem_cons hj, h1]
    have h4 := congrArg List.length h
    have h5 : D.drop j' = (D.drop (j + 1)).drop (j' - (j + 1)) := by rw [List.drop_drop]; congr 1; omega
    have h6 : ((D.drop j').filter p).length ≤ ((D.drop (j + 1)).filter p).length := by
      rw [h5]
      exact List.Sublist.length_le ((List.drop_sublist _ _).filter p)
    rw [h3, List.filter_cons_of_pos h2, List.length_cons] at h4
    omega
  have a1 := key h h1 h2
  have a2 := key h.symm h1' h2'
  omega

/-! ## the next row -/

/-- The row that starts in line `n` is made of `k + 1` lines, with the text `l`, or with none: it is too long or open. -/
def Ctx.Shape (x : Ctx) (n k : Nat) (l : Option Bytes) : Prop :=
  (x.cfg.multiline = false ∧ k = 0 ∧ n < (lines x.src.data).length ∧ l = some (x.joined n 0)) ∨
  (x.cfg.multiline = true ∧ (x.RowTo n k ∧ l = some (x.joined n k) ∨ x.RowTooLong n k ∧ l = none ∨
    x.RowOpen n ∧ n + k + 1 = (lines x.src.data).length ∧ l = none))

section
variable {x y : Ctx} {n n' : Nat}

theorem joined_shift (h : (rawLines x.src.data).drop n = (rawLines y.src.data).drop n') (k : Nat) : x.joined n k = y.joined n' k := by
  unfold Ctx.joined; rw [h]

theorem goesOn_shift (hc : y.cfg = x.cfg) (hd : y.delim = x.delim) (t : Bytes) : y.GoesOn t ↔ x.GoesOn t := by
  unfold Ctx.GoesOn; rw [hc, hd]

theorem Ctx.RowTo.shift (hc : y.cfg = x.cfg) (hd : y.delim = x.delim)
    (h : (rawLines x.src.data).drop n = (rawLines y.src.data).drop n') {k : Nat} (hk : x.RowTo n k) : y.RowTo n' k := by
  refine ⟨(length_drop_eq (lines_drop h) k).mp hk.inside, ?_, ?_⟩
  · rw [goesOn_shift hc hd, ← joined_shift h]; exact hk.stops
  · intro i hi
    rw [goesOn_shift hc hd, ← joined_shift h, hc]; exact hk.before i hi

theorem Ctx.Shape.shift (hc : y.cfg = x.cfg) (hd : y.delim = x.delim)
    (h : (rawLines x.src.data).drop n = (rawLines y.src.data).drop n') {k : Nat} {l : Option Bytes} (hk : x.Shape n k l) :
    y.Shape n' k l := by
  have hl := lines_drop h
  rcases hk with ⟨h1, h2, h3, h4⟩ | ⟨h1, h2⟩
  · refine .inl ⟨by rw [hc]; exact h1, h2, (length_drop_eq hl 0).mp h3, by rw [← joined_shift h]; exact h4⟩
  · refine .inr ⟨by rw [hc]; exact h1, ?_⟩
    rcases h2 with ⟨h2, h3⟩ | ⟨h2, h3⟩ | ⟨h2, h3, h4⟩
    · exact .inl ⟨h2.shift hc hd h, by rw [← joined_shift h]; exact h3⟩
    · refine .inr (.inl ⟨⟨(length_drop_eq hl k).mp h2.inside, ?_, by rw [hc]; exact h2.limit, ?_⟩, h3⟩)
      · rw [goesOn_shift hc hd, ← joined_shift h]; exact h2.goesOn
      · intro i hi
        rw [goesOn_shift hc hd, ← joined_shift h, hc]; exact h2.before i hi
    · refine .inr (.inr ⟨?_, ?_, h4⟩)
      · intro i hi
        rw [goesOn_shift hc hd, ← joined_shift h, hc]
        exact h2 i ((length_drop_eq hl i).mpr hi)
      · have a1 := length_drop_eq hl k
        have a2 := length_drop_eq hl (k + 1)
        omega

theorem Ctx.Shape.unique {k k' : Nat} {l l' : Option Bytes} (h : x.Shape n k l) (h' : x.Shape n k' l') : k = k' ∧ l = l' := by
  have key : ∀ {k k' : Nat} {A : Prop}, (∀ i, i < k → x.GoesOn (x.joined n i) ∧ ¬ x.cfg.Limit i) →
      (¬ x.GoesOn (x.joined n k') ∨ x.cfg.Limit k') → ¬ k' < k := by
    intro k k' _ hb hs hlt
    rcases hs with hs | hs
    · exact hs (hb k' hlt).1
    · exact (hb k' hlt).2 hs
  rcases h with ⟨h1, h2, h3, h4⟩ | ⟨h1, h2⟩ <;> rcases h' with ⟨g1, g2, g3, g4⟩ | ⟨g1, g2⟩
  · exact ⟨by rw [h2, g2], by rw [h4, g4]⟩
  · rw [h1] at g1; cases g1
  · rw [h1] at g1; cases g1
  · rcases h2 with ⟨h2, h3⟩ | ⟨h2, h3⟩ | ⟨h2, h3, h4⟩ <;> rcases g2 with ⟨g2, g3⟩ | ⟨g2, g3⟩ | ⟨g2, g3, g4⟩
    · have a1 := key (A := True) h2.before (.inl g2.stops)
      have a2 := key (A := True) g2.before (.inl h2.stops)
      have : k = k' := by omega
      subst this
      exact ⟨rfl, by rw [h3, g3]⟩
    · have a1 := key (A := True) h2.before (.inr g2.limit)
      have a2 := key (A := True) g2.before (.inl h2.stops)
      have : k = k' := by omega
      subst this
      exact absurd g2.goesOn h2.stops
    · exact absurd (g2 k h2.inside).1 h2.stops
    · have a1 := key (A := True) h2.before (.inl g2.stops)
      have a2 := key (A := True) g2.before (.inr h2.limit)
      have : k = k' := by omega
      subst this
      exact absurd h2.goesOn g2.stops
    · have a1 := key (A := True) h2.before (.inr g2.limit)
      have a2 := key (A := True) g2.before (.inr h2.limit)
      exact ⟨by omega, by rw [h3, g3]⟩
    · exact absurd h2.limit (g2 k h2.inside).2
    · exact absurd (h2 k' g2.inside).1 g2.stops
    · exact absurd g2.limit (h2 k' g2.inside).2
    · exact ⟨by omega, by rw [h4, g4]⟩

end

theorem joined_here {x : Ctx} {n : Nat} {l : Bytes} {ls : List Bytes} (hs : x.Starts n n) (h : x.rest n = l :: ls) :
    n < (lines x.src.data).length ∧ x.joined n 0 = l ∧ ls = x.rest (n + 1) := by
  obtain ⟨l', h1, h2⟩ := rest_starts hs
  rw [h] at h2
  cases h2
  rw [List.getElem?_eq_some_iff] at h1
  obtain ⟨h3, h4⟩ := h1
  refine ⟨h3, ?_, rfl⟩
  have h5 : n < (rawLines x.src.data).length := by simpa [lines] using h3
  unfold Ctx.joined
  rw [List.drop_eq_getElem_cons h5]
  simp only [Nat.zero_add, List.take_succ_cons, List.take_zero, List.flatten_cons, List.flatten_nil, List.append_nil]
  rw [← h4]
  simp [lines]

/-- One `get_next` at a row, in both cases of a usable setup. -/
theorem row_any {x : Ctx} (hu : x.Usable) {s : Parser} (h : Parser.ReachT x s) {rs : List Req} (hrs : rs ≠ [])
    (hr : x.rest s.line ≠ []) : ∃ k l s' n res, RowOut x n (Parser.getNext x rs s) s' res ∧ x.Shape s.line k l ∧
      x.rest s'.line = x.rest (s.line + k + 1) ∧ s'.eof = (x.rest (s.line + k + 1)).isEmpty ∧ s.line + k + 1 ≤ s'.line ∧
      (∀ l, s'.converter l = s.converter l) ∧
      (∀ vs, res = .ok vs ↔ ∃ t, l = some t ∧ Ssp.Yields x.cfg (s.fresh x rs t) vs) := by
  rcases hu with ⟨hx, hm⟩ | hx
  · obtain ⟨l, ls, hls⟩ := List.exists_cons_of_ne_nil hr
    have hs := starts_here hx.liveT h hr
    obtain ⟨a1, a2, a3⟩ := joined_here hs hls
    obtain ⟨s', res, h1, h2, h3, h4, h5, h6, _, h8, _⟩ := row_core hx hm h.reach hrs hls
    refine ⟨0, some l, s', _, res, h1, .inl ⟨hm, rfl, a1, by rw [a2]⟩, by rw [h2, a3], by rw [h3, a3], h4, h6, ?_⟩
    intro vs
    rw [h8]
    simp
  · obtain ⟨k, s', res, h1, h2, h3, h4, h5, h6, _, h8⟩ := multi_core hx h hrs hr
    rcases h8 with ⟨g1, g2, _⟩ | ⟨g1, g2⟩ | ⟨g1, g2, g3⟩
    · refine ⟨k, some (x.joined s.line k), s', _, res, h1, .inr ⟨hx.ml, .inl ⟨g1, rfl⟩⟩, h2, h3, h4, h6, ?_⟩
      intro vs; rw [g2]; simp
    · refine ⟨k, none, s', _, res, h1, .inr ⟨hx.ml, .inr (.inl ⟨g1, rfl⟩)⟩, h2, h3, h4, h6, ?_⟩
      intro vs; rw [g2]; simp
    · refine ⟨k, none, s', _, res, h1, .inr ⟨hx.ml, .inr (.inr ⟨g1, g2, rfl⟩)⟩, h2, h3, h4, h6, ?_⟩
      intro vs
      rcases g3 with ⟨_, g3⟩ | ⟨_, g3⟩ <;> rw [g3] <;> simp

theorem over_any {x : Ctx} (hu : x.Usable) {s : Parser} (h : Parser.ReachT x s) {rs : List Req} (hrs : rs ≠ [])
    (hr : x.rest s.line = []) :
    ∃ s', (∀ vs, ¬ Parser.Yields x (Parser.getNext x rs s) vs) ∧ (∃ m, Parser.Fails x (Parser.getNext x rs s) m) ∧
      ((∃ e, Parser.getNext x rs s = .exc e s') ∨ ∃ vs, Parser.getNext x rs s = .ok vs s' ∧ s'.valid x.cfg = false) ∧
      s'.eof = true ∧ x.rest s'.line = [] := by
  rcases hu with ⟨hx, hm⟩ | hx
  · exact over_core hx hm h.reach hrs hr
  · exact over_coreM hx.ok hx.ml h hrs hr

theorem step_observe {x : Ctx} {op : Op} {s s' : Parser} {o : Obs} (h : Parser.step x op s = some (o, s')) :
    o = Parser.observe x o.ret s' := by
  unfold Parser.step at h
  cases h1 : op.exec x s with
  | ok r u => rw [h1] at h; cases h; rfl
  | exc r u => rw [h1] at h; cases h; rfl
  | ub => rw [h1] at h; cases h
  | nofuel => rw [h1] at h; cases h

/-- a `try_next` without `or_else` at a row -/
theorem chain_none {x : Ctx} {s s' : Parser} {a : Parser.Alt} {n : Nat} {m : Bytes} (he : s.eof = false) (hth : x.cfg.mode ≠ .throw)
    (h : RowOut x n (Parser.getNext x a.reqs s) s' (.error m)) :
    Parser.step x (.chain a []) s = some (Parser.observe x (.opts [(none, false)]) s', s') ∧ s'.valid x.cfg = false := by
  unfold RowOut at h
  simp only [if_neg hth] at h
  obtain ⟨vs, h1, h2, _⟩ := h
  refine ⟨?_, h2⟩
  have h3 : Parser.tryNext x a s = .ok (none, false) s' := by
    unfold Parser.tryNext
    rw [M.bind_of_ok h1, M.get_bind, if_neg (by rw [h2]; simp)]
    rfl
  have h4 : Parser.tryChain x a [] s = .ok [(none, false)] s' := by
    unfold Parser.tryChain
    rw [M.bind_of_ok h3]
    rfl
  unfold Parser.step Op.exec
  dsimp only
  rw [M.get_bind, he]
  rw [if_neg (by simp), M.bind_of_ok h4]
  rfl

/-- what a chain of alternatives makes of the row `l` -/
def ChainOuts (x : Ctx) (s : Parser) (l : Bytes) (as : List Parser.Alt) (outs : List (Option (List Val) × Bool)) : Prop :=
  outs.length = as.length ∧ ∀ (i : Nat) (b : Parser.Alt), as[i]? = some b → ∃ out, outs[i]? = some out ∧
    (∀ vs, out.1 = some vs ↔ b.Suits x s l vs ∧
      ∀ (j : Nat) (b' : Parser.Alt), j < i → as[j]? = some b' → ∀ vs', ¬ b'.Suits x s l vs') ∧
    (out.2 = true ↔ (b.fn.isSome = true ∧ ∃ vs, b.Converts x s l vs) ∧
      ∀ (j : Nat) (b' : Parser.Alt), j < i → as[j]? = some b' → ∀ vs', ¬ b'.Suits x s l vs')

theorem ChainOuts.unique {x : Ctx} {s : Parser} {l : Bytes} {as : List Parser.Alt} {o o' : List (Option (List Val) × Bool)}
    (h : ChainOuts x s l as o) (h' : ChainOuts x s l as o') : o = o' := by
  apply List.ext_getElem?
  intro i
  by_cases hi : i < as.length
  · obtain ⟨a, h1, h2, h3⟩ := h.2 i _ (List.getElem?_eq_getElem hi)
    obtain ⟨b, g1, g2, g3⟩ := h'.2 i _ (List.getElem?_eq_getElem hi)
    rw [h1, g1]
    have e1 : a.1 = b.1 := by
      apply Option.ext
      intro vs
      rw [h2, g2]
    have e2 : a.2 = b.2 := by
      rw [Bool.eq_iff_iff, h3, g3]
    congr 1
    exact Prod.ext e1 e2
  · rw [List.getElem?_eq_none (by rw [h.1]; omega), List.getElem?_eq_none (by rw [h'.1]; omega)]

theorem ChainOuts.congr {x y : Ctx} {s t : Parser} {l : Bytes} {as : List Parser.Alt} {o : List (Option (List Val) × Bool)}
    (hc : y.cfg = x.cfg) (hd : y.delim = x.delim) (hs : t.converter l = s.converter l) (h : ChainOuts y t l as o) :
    ChainOuts x s l as o := by
  have e1 : ∀ (b : Parser.Alt) vs, b.Converts y t l vs ↔ b.Converts x s l vs := by
    intro b vs
    unfold Parser.Alt.Converts
    rw [fresh_congr hc hd hs, hc]
  have e2 : ∀ (b : Parser.Alt) vs, b.Suits y t l vs ↔ b.Suits x s l vs := by
    intro b vs
    unfold Parser.Alt.Suits
    rw [e1]
  unfold ChainOuts at *
  simp only [e1, e2] at h
  exact h

/-- One `try_next` with alternatives at a row, in both cases of a usable setup. -/
theorem chain_any {x : Ctx} (hu : x.Usable) {s : Parser} (h : Parser.ReachT x s) (hth : x.cfg.mode ≠ .throw) {a : Parser.Alt}
    {as : List Parser.Alt} (hne : ∀ b ∈ a :: as, b.reqs ≠ []) (he : s.eof = false)
    (hT : (Op.chain a as).Tame x s.line s.eof) (hr : x.rest s.line ≠ []) :
    ∃ k l o s' outs, Parser.step x (.chain a as) s = some (o, s') ∧ o.ret = .opts outs ∧ x.Shape s.line k l ∧
      x.rest s'.line = x.rest (s.line + k + 1) ∧ s'.eof = (x.rest (s.line + k + 1)).isEmpty ∧ s.line + k + 1 ≤ s'.line ∧
      (∀ l, s'.converter l = s.converter l) ∧
      (∀ t, l = some t → ChainOuts x s t (a :: as) outs) ∧ (l = none → outs = [(none, false)]) ∧
      (o.valid = true ↔ ∃ out ∈ outs, out.1.isSome = true) := by
  rcases hu with ⟨hx, hm⟩ | hx
  · obtain ⟨l, ls, hls⟩ := List.exists_cons_of_ne_nil hr
    have hs := starts_here hx.liveT h hr
    obtain ⟨a1, a2, a3⟩ := joined_here hs hls
    obtain ⟨o, s', outs, h1, h2, h3, h4, h5, h6, h7, h8, h9⟩ := C41_first_that_suits hx hm hth h.reach hls hne
    have hlt : s.line < s'.line := by
      have := (row_core hx hm h.reach (hne a (by simp)) hls)
      obtain ⟨t, hp, hi, _⟩ := h.sim hx.liveT
      false_or_by_contra
      rename_i hlt
      have h10 : (x.rest s.line).length ≤ (x.rest s'.line).length := by
        have : s'.line ≤ s.line := by omega
        unfold Ctx.rest
        refine List.Sublist.length_le ((?_ : List.Sublist _ _).filter _)
        rw [show s.line = s'.line + (s.line - s'.line) by omega, ← List.drop_drop]
        exact List.drop_sublist _ _
      rw [hls, h6, List.length_cons] at h10
      omega
    refine ⟨0, some l, o, s', outs, h1, h2, .inl ⟨hm, rfl, a1, by rw [a2]⟩, by rw [h6, a3], by rw [h7, a3], hlt, h9, ?_, by simp, h5⟩
    intro t ht
    cases ht
    exact ⟨h3, h4⟩
  · by_cases hk : ∃ k, x.RowTo s.line k
    · obtain ⟨k, hk⟩ := hk
      obtain ⟨o, s', outs, h1, h2, h3, h4, h5, h6, h7, h8, _, h9, _⟩ := C41_first_that_suits_multiline hx hth h hk hne
      refine ⟨k, some (x.joined s.line k), o, s', outs, h1, h2, .inr ⟨hx.ml, .inl ⟨hk, rfl⟩⟩, h6, h7, h8, h9, ?_, by simp, h5⟩
      intro t ht
      cases ht
      exact ⟨h3, h4⟩
    · have has : as = [] := by
        rcases hT hx.ml a as rfl with h1 | h1 | h1
        · exact h1
        · rw [he] at h1; cases h1
        · exact absurd h1.2 hk
      subst has
      obtain ⟨k, l, s', n, res, h1, h2, h3, h4, h5, h6, h7⟩ := row_any (.inr hx) h (hne a (by simp)) hr
      have hl : l = none := by
        rcases h2 with ⟨g, _⟩ | ⟨_, ⟨g, _⟩ | ⟨_, g⟩ | ⟨_, _, g⟩⟩
        · rw [hx.ml] at g; cases g
        · exact absurd ⟨k, g⟩ hk
        · exact g
        · exact g
      subst hl
      cases res with
      | ok vs => obtain ⟨_, g, _⟩ := (h7 vs).mp rfl; cases g
      | error m =>
        obtain ⟨g1, g2⟩ := chain_none he hth h1
        refine ⟨k, none, _, s', _, g1, rfl, h2, h3, h4, h5, h6, by simp, fun _ => rfl, ?_⟩
        show s'.valid x.cfg = true ↔ _
        simp [g2]

/-! ## two parsers -/

/-- `s1` and `t1` are what became of `s` and `t`: both at the end, or equally far from where they started -/
structure Abreast (x y : Ctx) (s t s1 t1 : Parser) : Prop where
  left : Parser.ReachT x s1
  right : Parser.ReachT y t1
  conv : x.rest s1.line ≠ [] → ∀ l, t1.converter l = s1.converter l
  place : (x.rest s1.line = [] ∧ y.rest t1.line = [] ∧ s1.eof = true ∧ t1.eof = true ∧ s1.valid x.cfg = t1.valid y.cfg) ∨
    ∃ m, s1.line = s.line + m ∧ t1.line = t.line + m ∧ x.rest s1.line ≠ [] ∧ y.rest t1.line ≠ [] ∧ s1.eof = false ∧ t1.eof = false

theorem Ctx.Usable.ok {x : Ctx} (h : x.Usable) : x.Ok := by
  rcases h with h | h
  · exact h.1
  · exact h.ok

theorem position_of {x : Ctx} (hx : x.Ok) {s : Parser} (h : Parser.ReachT x s) (hr : x.rest s.line ≠ []) :
    s.position = ((rawLines x.src.data).take s.line).flatten.length ∧
      x.src.data.drop s.position = ((rawLines x.src.data).drop s.line).flatten ∧ s.line < (rawLines x.src.data).length := by
  obtain ⟨l, ls, hls⟩ := List.exists_cons_of_ne_nil hr
  obtain ⟨pre, raw, post, h1, h2, h3, h4, h5⟩ := C30_location_multiline hx h hls
  have e1 : (rawLines x.src.data).take s.line = pre := by rw [h2, h4]; simp
  have e2 : (rawLines x.src.data).drop s.line = raw :: rawLines post := by rw [h2, h4]; simp
  refine ⟨by rw [e1, h5], ?_, by rw [h2, h4]; simp⟩
  rw [e2, h1, h5, List.append_assoc]
  simp [rawLines_flatten]

theorem rest_shift {x y : Ctx} {n n' : Nat} (hc : y.cfg = x.cfg) (h : (rawLines x.src.data).drop n = (rawLines y.src.data).drop n') :
    x.rest n = y.rest n' := by
  unfold Ctx.rest
  rw [lines_drop h, hc]

theorem eof_of {x : Ctx} (hx : x.Ok) {s : Parser} (h : Parser.ReachT x s) (hr : x.rest s.line ≠ []) : s.eof = false := by
  obtain ⟨t, hp, hi, _⟩ := h.sim hx.liveT
  obtain ⟨l, ls, hls⟩ := List.exists_cons_of_ne_nil hr
  rw [hp.line] at hls
  rw [hp.eof]
  exact (hi.rest_here hls).1

/-- after both have read the same row -/
theorem Abreast.after {x y : Ctx} (hx : x.Ok) (hy : y.Ok) (hc : y.cfg = x.cfg) {s t : Parser}
    (hd : (rawLines x.src.data).drop s.line = (rawLines y.src.data).drop t.line) {m k : Nat} {s2 t2 : Parser}
    (hs : Parser.ReachT x s2) (ht : Parser.ReachT y t2) (hcv : ∀ l, t2.converter l = s2.converter l)
    (hv : s2.valid x.cfg = t2.valid y.cfg)
    (h1 : x.rest s2.line = x.rest (s.line + m + k + 1)) (h2 : s2.eof = (x.rest (s.line + m + k + 1)).isEmpty) (h3 : s.line + m + k + 1 ≤ s2.line)
    (g1 : y.rest t2.line = y.rest (t.line + m + k + 1)) (g2 : t2.eof = (y.rest (t.line + m + k + 1)).isEmpty) (g3 : t.line + m + k + 1 ≤ t2.line) :
    Abreast x y s t s2 t2 := by
  refine ⟨hs, ht, fun _ => hcv, ?_⟩
  have hd' := drop_more hd (m + k + 1)
  rw [← Nat.add_assoc, ← Nat.add_assoc, ← Nat.add_assoc, ← Nat.add_assoc] at hd'
  have he := rest_shift hc hd'
  by_cases hr : x.rest (s.line + m + k + 1) = []
  · left
    refine ⟨by rw [h1, hr], by rw [g1, ← he, hr], by rw [h2, hr]; rfl, by rw [g2, ← he, hr]; rfl, hv⟩
  · right
    have hr1 : x.rest s2.line ≠ [] := by rw [h1]; exact hr
    have hr2 : y.rest t2.line ≠ [] := by rw [g1, ← he]; exact hr
    obtain ⟨l, a1, a2⟩ := (starts_here hx.liveT hs hr1).row
    obtain ⟨l', b1, b2⟩ := (starts_here hy.liveT ht hr2).row
    have hl := lines_drop hd'
    have key : s2.line - (s.line + m + k + 1) = t2.line - (t.line + m + k + 1) := by
      refine same_place (p := fun l => !x.cfg.ignoreEmpty || !l.isEmpty) (D := (lines x.src.data).drop (s.line + m + k + 1)) (a := l) (a' := l') ?_ ?_ ?_ ?_ ?_
      · have e1 : x.rest s2.line = y.rest t2.line := by rw [h1, g1, he]
        unfold Ctx.rest at e1
        rw [hc] at e1
        conv => rhs; rw [hl]
        rw [List.drop_drop, List.drop_drop, show s.line + m + k + 1 + (s2.line - (s.line + m + k + 1)) = s2.line by omega,
          show t.line + m + k + 1 + (t2.line - (t.line + m + k + 1)) = t2.line by omega]
        exact e1
      · rw [List.getElem?_drop, show s.line + m + k + 1 + (s2.line - (s.line + m + k + 1)) = s2.line by omega]; exact a1
      · cases hie : x.cfg.ignoreEmpty with
        | false => rfl
        | true => simpa using a2 hie
      · rw [hl, List.getElem?_drop, show t.line + m + k + 1 + (t2.line - (t.line + m + k + 1)) = t2.line by omega]; exact b1
      · cases hie : x.cfg.ignoreEmpty with
        | false => rfl
        | true => simpa using b2 (by rw [hc]; exact hie)
    exact ⟨s2.line - s.line, by omega, by omega, hr1, hr2, eof_of hx hs hr1, eof_of hy ht hr2⟩

/-- what is observed of twins -/
theorem Abreast.same {x y : Ctx} (hx : x.Ok) (hy : y.Ok) {s t s2 t2 : Parser} (hs : Parser.ReachT x s) (ht : Parser.ReachT y t)
    (hr : x.rest s.line ≠ []) (hr' : y.rest t.line ≠ [])
    (hd : (rawLines x.src.data).drop s.line = (rawLines y.src.data).drop t.line) (h : Abreast x y s t s2 t2) {r r' : Ret}
    (h1 : r = r' ∨ ∃ m m', r = .thrown m ∧ r' = .thrown m') (h2 : s2.valid x.cfg = t2.valid y.cfg) :
    SameAhead s t (Parser.observe x r s2) (Parser.observe y r' t2) := by
  refine ⟨h1, h2, ?_, ?_, ?_⟩
  · show s2.eof = t2.eof
    rcases h.place with ⟨_, _, a, b, _⟩ | ⟨_, _, _, _, _, a, b⟩ <;> rw [a, b]
  · intro he
    have he : s2.eof = false := he
    rcases h.place with ⟨_, _, a, b⟩ | ⟨m, a1, a2, _⟩
    · rw [a] at he; cases he
    · exact ⟨m, a1, a2⟩
  · intro he
    have he : s2.eof = false := he
    rcases h.place with ⟨_, _, a, b⟩ | ⟨m, a1, a2, a3, a4, _⟩
    · rw [a] at he; cases he
    · obtain ⟨p1, _⟩ := position_of hx h.left a3
      obtain ⟨p2, _⟩ := position_of hy h.right a4
      obtain ⟨p3, _⟩ := position_of hx hs hr
      obtain ⟨p4, _⟩ := position_of hy ht hr'
      refine ⟨(((rawLines x.src.data).drop s.line).take m).flatten.length, ?_, ?_⟩
      · show s2.position = _
        rw [p1, p3, a1, List.take_add, List.flatten_append, List.length_append]
      · show t2.position = _
        rw [p2, p4, a2, hd, List.take_add, List.flatten_append, List.length_append]

theorem valid_throw {x : Ctx} {s : Parser} (h : x.cfg.mode = .throw) : s.valid x.cfg = true := by
  unfold Parser.valid ErrSt.valid
  rw [h]

theorem getNext_twin {x y : Ctx} (hux : x.Usable) (huy : y.Usable) (hc : y.cfg = x.cfg) (hdl : y.delim = x.delim) {s t : Parser}
    (hs : Parser.ReachT x s) (ht : Parser.ReachT y t) (hr : x.rest s.line ≠ []) (hr' : y.rest t.line ≠ [])
    (hd : (rawLines x.src.data).drop s.line = (rawLines y.src.data).drop t.line) {s1 t1 : Parser} (h : Abreast x y s t s1 t1)
    {rs : List Req} (hrs : rs ≠ []) : ∃ o o' s2 t2, Parser.step x (.getNext rs) s1 = some (o, s2) ∧
      Parser.step y (.getNext rs) t1 = some (o', t2) ∧ SameAhead s t o o' ∧ Abreast x y s t s2 t2 := by
  have hx := hux.ok
  have hy := huy.ok
  have tame : ∀ {z : Ctx} {n : Nat} {e : Bool}, (Op.getNext rs).Tame z n e := by intro z n e _ a as h; cases h
  rcases h.place with ⟨h1, h2, _, _, _⟩ | ⟨m, h1, h2, h3, h4, _, _⟩
  · obtain ⟨s2, _, ⟨m, a1⟩, a2, a3, a4⟩ := over_any hux h.left hrs h1
    obtain ⟨t2, _, ⟨m', b1⟩, b2, b3, b4⟩ := over_any huy h.right hrs h2
    have key : ∀ {z : Ctx} {u u2 : Parser} {m : Bytes}, Parser.Fails z (Parser.getNext z rs u) m →
        ((∃ e, Parser.getNext z rs u = .exc e u2) ∨ ∃ vs, Parser.getNext z rs u = .ok vs u2 ∧ u2.valid z.cfg = false) →
        ∃ r, Parser.step z (.getNext rs) u = some (Parser.observe z r u2, u2) ∧
          (z.cfg.mode = .throw → ∃ e, r = .thrown e) ∧ (z.cfg.mode ≠ .throw → r = .row none ∧ u2.valid z.cfg = false) := by
      intro z u u2 m hf h
      unfold Parser.step Op.exec
      dsimp only
      rcases h with ⟨e, h⟩ | ⟨vs, h, hv⟩
      · rw [M.bind_of_exc h]
        refine ⟨_, rfl, fun _ => ⟨_, rfl⟩, ?_⟩
        intro hm
        unfold Parser.Fails at hf
        rw [h] at hf
        cases hmode : z.cfg.mode with
        | throw => exact absurd hmode hm
        | string => rw [hmode] at hf; obtain ⟨_, _, hf, _⟩ := hf; cases hf
        | bool => rw [hmode] at hf; obtain ⟨_, _, hf, _⟩ := hf; cases hf
      · rw [M.bind_of_ok h, M.get_bind, hv]
        refine ⟨_, rfl, ?_, fun _ => ⟨rfl, rfl⟩⟩
        intro hm
        rw [valid_throw hm] at hv
        cases hv
    obtain ⟨r, c1, c2, c3⟩ := key a1 a2
    obtain ⟨r', d1, d2, d3⟩ := key b1 b2
    have hv : s2.valid x.cfg = t2.valid y.cfg := by
      by_cases hm : x.cfg.mode = .throw
      · rw [valid_throw hm, valid_throw (by rw [hc]; exact hm)]
      · rw [(c3 hm).2, (d3 (by rw [hc]; exact hm)).2]
    have htw : Abreast x y s t s2 t2 :=
      ⟨h.left.step tame c1, h.right.step tame d1, fun h => absurd a4 h, .inl ⟨a4, b4, a3, b3, hv⟩⟩
    refine ⟨_, _, s2, t2, c1, d1, htw.same hx hy hs ht hr hr' hd ?_ hv, htw⟩
    · by_cases hm : x.cfg.mode = .throw
      · obtain ⟨e, he⟩ := c2 hm
        obtain ⟨e', he'⟩ := d2 (by rw [hc]; exact hm)
        exact .inr ⟨e, e', he, he'⟩
      · left
        rw [(c3 hm).1, (d3 (by rw [hc]; exact hm)).1]
  · obtain ⟨k, l, s2, n, res, a1, a2, a3, a4, a5, a6, a7⟩ := row_any hux h.left hrs h3
    obtain ⟨k', l', t2, n', res', b1, b2, b3, b4, b5, b6, b7⟩ := row_any huy h.right hrs h4
    rw [h1] at a2 a3 a4 a5
    rw [h2] at b2 b3 b4 b5
    obtain ⟨e1, e2⟩ := b2.unique (a2.shift hc hdl (drop_more hd m))
    subst e1 e2
    have c1 := a1.step
    have d1 := b1.step
    have hres : ∀ vs, res = .ok vs ↔ res' = .ok vs := by
      intro vs
      rw [a7, b7]
      refine exists_congr fun u => and_congr_right fun _ => ?_
      rw [fresh_congr hc hdl (h.conv h3 u), hc]
    have hv : s2.valid x.cfg = t2.valid y.cfg := by
      unfold RowOut at a1 b1
      cases res with
      | ok vs => rw [(hres vs).mp rfl] at b1; rw [a1.2, b1.2]
      | error e =>
        cases res' with
        | ok vs => have := (hres vs).mpr rfl; cases this
        | error e' =>
          by_cases hm : x.cfg.mode = .throw
          · rw [valid_throw hm, valid_throw (by rw [hc]; exact hm)]
          · simp only [hc, if_neg hm] at a1 b1
            obtain ⟨_, _, a, _⟩ := a1
            obtain ⟨_, _, b, _⟩ := b1
            rw [hc, a, b]
    have htw : Abreast x y s t s2 t2 := by
      refine .after hx hy hc hd (h.left.step tame c1) (h.right.step tame d1) ?_ hv a3 a4 a5 b3 b4 b5
      intro l; rw [a6, b6]; exact h.conv h3 l
    refine ⟨_, _, s2, t2, c1, d1, htw.same hx hy hs ht hr hr' hd ?_ hv, htw⟩
    · cases res with
      | ok vs => rw [(hres vs).mp rfl]; exact .inl rfl
      | error e =>
        cases res' with
        | ok vs => have := (hres vs).mpr rfl; cases this
        | error e' =>
          by_cases hm : x.cfg.mode = .throw
          · exact .inr ⟨_, _, by simp only [retOf, if_pos hm]; rfl, by simp only [retOf, hc, if_pos hm]; rfl⟩
          · left; simp only [retOf, hc, if_neg hm]

theorem chain_twin {x y : Ctx} (hux : x.Usable) (huy : y.Usable) (hc : y.cfg = x.cfg) (hdl : y.delim = x.delim) {s t : Parser}
    (hs : Parser.ReachT x s) (ht : Parser.ReachT y t) (hr : x.rest s.line ≠ []) (hr' : y.rest t.line ≠ [])
    (hd : (rawLines x.src.data).drop s.line = (rawLines y.src.data).drop t.line) {s1 t1 : Parser} (h : Abreast x y s t s1 t1)
    {a : Parser.Alt} {as : List Parser.Alt} (hne : ∀ b ∈ a :: as, b.reqs ≠ []) (hth : x.cfg.mode ≠ .throw)
    (hT : (Op.chain a as).Tame x s1.line s1.eof) : ∃ o o' s2 t2, Parser.step x (.chain a as) s1 = some (o, s2) ∧
      Parser.step y (.chain a as) t1 = some (o', t2) ∧ SameAhead s t o o' ∧ Abreast x y s t s2 t2 := by
  have hx := hux.ok
  have hy := huy.ok
  rcases h.place with ⟨h1, h2, h3, h4, hv⟩ | ⟨m, h1, h2, h3, h4, h5, h6⟩
  · have key : ∀ {z : Ctx} {u : Parser}, u.eof = true → Parser.step z (.chain a as) u = some (Parser.observe z (.opts []) u, u) := by
      intro z u he
      unfold Parser.step Op.exec
      dsimp only
      rw [M.get_bind, he]
      rfl
    refine ⟨_, _, s1, t1, key h3, key h4, ?_, h⟩
    refine ⟨.inl rfl, hv, by show s1.eof = t1.eof; rw [h3, h4], ?_, ?_⟩
    · intro he; have he : s1.eof = false := he; rw [h3] at he; cases he
    · intro he; have he : s1.eof = false := he; rw [h3] at he; cases he
  · obtain ⟨k, l, o, s2, outs, a1, a2, a3, a4, a5, a6, a7, a8, a9, a10⟩ := chain_any hux h.left hth hne h5 hT h3
    have hT' : (Op.chain a as).Tame y t1.line t1.eof := by
      intro hm a' as' heq
      rcases hT (by rw [← hc]; exact hm) a' as' heq with g | g | ⟨_, k, g⟩
      · exact .inl g
      · rw [h5] at g; cases g
      · refine .inr (.inr ⟨?_, k, ?_⟩)
        · rcases huy with ⟨_, g'⟩ | g'
          · rw [hm] at g'; cases g'
          · exact g'
        · rw [h2]
          rw [h1] at g
          exact g.shift hc hdl (drop_more hd m)
    obtain ⟨k', l', o', t2, outs', b1, b2, b3, b4, b5, b6, b7, b8, b9, b10⟩ :=
      chain_any huy h.right (by rw [hc]; exact hth) hne h6 hT' h4
    rw [h1] at a3 a4 a5 a6
    rw [h2] at b3 b4 b5 b6
    obtain ⟨e1, e2⟩ := b3.unique (a3.shift hc hdl (drop_more hd m))
    subst e1 e2
    have houts : outs = outs' := by
      cases l' with
      | none => rw [a9 rfl, b9 rfl]
      | some u => exact (a8 u rfl).unique ((b8 u rfl).congr hc hdl (h.conv h3 u))
    have ho := step_observe a1
    have ho' := step_observe b1
    rw [ho] at a1 a10 a2
    rw [ho'] at b1 b10 b2
    have hv : s2.valid x.cfg = t2.valid y.cfg := by
      rw [Bool.eq_iff_iff]
      refine Iff.trans a10 (Iff.trans ?_ b10.symm)
      rw [houts]
    have htw : Abreast x y s t s2 t2 := by
      refine .after hx hy hc hd (h.left.step hT a1) (h.right.step hT' b1) ?_ hv a4 a5 a6 b4 b5 b6
      intro l; rw [a7, b7]; exact h.conv h3 l
    refine ⟨_, _, s2, t2, a1, b1, htw.same hx hy hs ht hr hr' hd (.inl ?_) hv, htw⟩
    have e1 : o.ret = .opts outs := a2
    have e2 : o'.ret = .opts outs' := b2
    rw [e1, e2, houts]

end Ssp
