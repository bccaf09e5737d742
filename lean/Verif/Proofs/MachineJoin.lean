import Verif.Proofs.MachineTotal
import Verif.Proofs.MachineRest
/-!
# The rows of several lines
-/
namespace Ssp
open Spec

/-! ## Joining lines -/

/-- all raw lines but the last end with LF -/
theorem rawLines_lf (d : Bytes) : ∀ {i : Nat} {l : Bytes}, (rawLines d)[i]? = some l → i + 1 < (rawLines d).length →
    l.getLast? = some LF := by
  induction d with
  | nil => intro i l h; simp [rawLines] at h
  | cons b d ih =>
    intro i l h hi
    simp only [rawLines] at h hi
    split at h
    · rename_i hb
      rw [if_pos hb] at hi
      cases i with
      | zero => simp at h; subst h; simp [hb]
      | succ i => exact ih (by simpa using h) (by simpa using hi)
    · rename_i hb
      rw [if_neg hb] at hi
      cases hr : rawLines d with
      | nil => rw [hr] at hi; simp at hi
      | cons r rs =>
        rw [hr] at h hi
        cases i with
        | zero =>
          simp at h; subst h
          have := ih (i := 0) (l := r) (by rw [hr]; rfl) (by rw [hr]; simpa using hi)
          cases r with
          | nil => simp at this
          | cons y ys => rw [List.getLast?_cons_cons]; exact this
        | succ i => exact ih (i := i + 1) (by rw [hr]; simpa using h) (by rw [hr]; simpa using hi)

theorem eolOf_append {p l : Bytes} (hp : p.getLast? ≠ some CR) (hl : l ≠ []) : eolOf (p ++ l) = eolOf l := by
  rcases List.eq_nil_or_concat l with rfl | ⟨l', y, rfl⟩
  · exact absurd rfl hl
  · simp only [List.concat_eq_append]
    unfold eolOf
    have h1 : (p ++ (l' ++ [y])).getLast? = some y := by simp
    have h2 : (l' ++ [y]).getLast? = some y := by simp
    rw [h1, h2]
    have h3 : (p ++ (l' ++ [y])).dropLast = p ++ l' := by rw [← List.append_assoc]; simp
    have h4 : (l' ++ [y]).dropLast = l' := by simp
    rw [h3, h4]
    rcases List.eq_nil_or_concat l' with rfl | ⟨l'', z, rfl⟩
    · simp [hp]
    · simp

theorem chop_append {p l : Bytes} (hp : p.getLast? ≠ some CR) (hl : l ≠ []) : chop (p ++ l) = p ++ chop l := by
  have h1 := chop_eol (p ++ l)
  have h2 := chop_eol l
  rw [eolOf_append hp hl] at h1
  have : p ++ l = (p ++ chop l) ++ eolOf l := by rw [List.append_assoc, h2]
  rw [this] at h1
  have h3 := List.append_cancel_right h1
  rw [List.append_assoc, h2] at h3
  exact h3

theorem flatten_last_ne_cr {d : Bytes} {n j : Nat} (h : n + j < (rawLines d).length) :
    (((rawLines d).drop n).take j).flatten.getLast? ≠ some CR := by
  cases j with
  | zero => simp
  | succ j =>
    have hlt : j < ((rawLines d).drop n).length := by rw [List.length_drop]; omega
    rw [List.take_succ_eq_append_getElem hlt, List.flatten_append]
    have hne : ((rawLines d).drop n)[j] ≠ [] := rawLines_ne_nil (List.mem_of_mem_drop (List.getElem_mem hlt))
    have hlf : ((rawLines d).drop n)[j].getLast? = some LF := by
      refine rawLines_lf d (i := n + j) ?_ (by omega)
      rw [← List.getElem?_drop, List.getElem?_eq_getElem hlt]
    simp only [List.flatten_cons, List.flatten_nil, List.append_nil, List.getLast?_append, hlf, Option.some_or]
    decide

theorem joined_zero {x : Ctx} {n : Nat} (h : n < (rawLines x.src.data).length) : x.joined n 0 = chop (rawLines x.src.data)[n] := by
  unfold Ctx.joined
  rw [List.drop_eq_getElem_cons h]
  simp only [Nat.zero_add, List.take_succ_cons, List.take_zero, List.flatten_cons, List.flatten_nil, List.append_nil]

theorem joined_succ {x : Ctx} {n j : Nat} (h : n + j + 1 < (rawLines x.src.data).length) :
    x.joined n (j + 1) = x.joined n j ++ eolOf (rawLines x.src.data)[n + j] ++ chop (rawLines x.src.data)[n + j + 1] := by
  unfold Ctx.joined
  have hlt : j + 1 < ((rawLines x.src.data).drop n).length := by rw [List.length_drop]; omega
  have hlt' : j < ((rawLines x.src.data).drop n).length := by omega
  have hg : ((rawLines x.src.data).drop n)[j + 1] = (rawLines x.src.data)[n + j + 1] := by
    rw [List.getElem_drop]; rfl
  have hg' : ((rawLines x.src.data).drop n)[j] = (rawLines x.src.data)[n + j] := by
    rw [List.getElem_drop]
  rw [List.take_succ_eq_append_getElem hlt, List.flatten_append, hg]
  have h1 := flatten_last_ne_cr (d := x.src.data) (n := n) (j := j + 1) (by omega)
  simp only [List.flatten_cons, List.flatten_nil, List.append_nil]
  rw [chop_append h1 (rawLines_ne_nil (List.getElem_mem _))]
  congr 1
  rw [List.take_succ_eq_append_getElem hlt', List.flatten_append, hg']
  have h2 := flatten_last_ne_cr (d := x.src.data) (n := n) (j := j) (by omega)
  simp only [List.flatten_cons, List.flatten_nil, List.append_nil]
  have hne : (rawLines x.src.data)[n + j] ≠ [] := rawLines_ne_nil (List.getElem_mem _)
  rw [chop_append h2 hne, List.append_assoc, chop_eol]

theorem joined_nul {x : Ctx} {n j : Nat} (h : NUL ∉ x.src.data) : NUL ∉ x.joined n j := by
  intro h0
  apply h
  rw [← rawLines_flatten x.src.data]
  have h1 : NUL ∈ (((rawLines x.src.data).drop n).take (j + 1)).flatten := List.mem_of_mem_take h0
  obtain ⟨l, hl, hz⟩ := List.mem_flatten.mp h1
  exact List.mem_flatten.mpr ⟨l, List.mem_of_mem_drop (List.mem_of_mem_take hl), hz⟩

/-! ## The text of a row -/

/-- The lines `n` to `n + j` are in the buffer. -/
structure MJoin (x : Ctx) (n j : Nat) (a : MRd) : Prop where
  base : MBase x a
  ln : a.ln = n + j + 1
  inside : n + j < (rawLines x.src.data).length
  look : a.look = x.joined n j
  crlf : (rawLines x.src.data)[n + j]?.map (fun l => eolOf l == [CR, LF]) = some a.crlf

theorem MHere.join {x : Ctx} {a : MRd} (h : MHere x a) (hb : MBase x a) : MJoin x (a.ln - 1) 0 a := by
  have hln := h.ln
  have hin : a.ln - 1 < (rawLines x.src.data).length := by
    false_or_by_contra
    have := h.look
    rw [List.getElem?_eq_none (by omega)] at this
    cases this
  refine ⟨hb, by omega, by omega, ?_, ?_⟩
  · have := h.look
    rw [List.getElem?_eq_getElem hin] at this
    rw [joined_zero hin]
    simpa using this.symm
  · simpa using h.crlf

/-- a slot change keeps it -/
theorem MJoin.slot {x : Ctx} {n j : Nat} {a : MRd} (h : MJoin x n j a) (s : ASlot) : MJoin x n j { a with next := s } :=
  ⟨⟨h.base.1, h.base.2, h.base.3, h.base.4⟩, h.ln, h.inside, h.look, h.crlf⟩

theorem append_join {x : Ctx} (hml : x.cfg.multiline = true) {n j : Nat} {a : MRd} (h : MJoin x n j a) :
    (n + j + 1 = (rawLines x.src.data).length ∧ ∃ a', MRd.append a = .ok false a' ∧ Kep x a a' ∧ a'.ln = a.ln ∧
      a'.next.err = a.next.err ∧ a'.next.serr = a.next.serr) ∨
    (∃ a', MRd.append a = .ok true a' ∧ Kep x a a' ∧ MJoin x n (j + 1) a' ∧
      a'.next.err = a.next.err ∧ a'.next.serr = a.next.serr ∧ a'.todo.length < a.todo.length ∧
      ∃ eol t, a'.look = a.look ++ eol ++ t ∧ eol.getLast? = some LF ∧ (eol.head? = some LF ∨ eol.head? = some CR)) := by
  obtain ⟨b, a', h1, h2, h3, h4, h5⟩ := append_tot hml h.base
  have hin := h.inside
  have hln := h.ln
  cases ht : a.todo with
  | nil =>
    have htodo := h.base.todo
    rw [ht] at htodo
    have := List.drop_eq_nil_iff.mp htodo.symm
    rw [MRd.append, ht] at h1
    simp only at h1
    cases h1
    exact .inl ⟨by omega, _, by simp only [MRd.append, ht], h2, rfl, rfl, rfl⟩
  | cons l ls =>
    have htodo := h.base.todo
    rw [ht] at htodo
    have hlt : a.ln < (rawLines x.src.data).length := by
      false_or_by_contra
      rw [List.drop_eq_nil_of_le (by omega)] at htodo
      cases htodo
    rw [List.drop_eq_getElem_cons hlt] at htodo
    injection htodo with e1 e2
    have hlt' : n + j + 1 < (rawLines x.src.data).length := by omega
    have hap := h1
    rw [MRd.append, ht] at h1
    simp only at h1
    cases h1
    have hc := h.crlf
    rw [List.getElem?_eq_getElem hin] at hc
    simp only [Option.map_some, Option.some.injEq] at hc
    have heol : (if a.crlf = true then [CR, LF] else [LF]) = eolOf (rawLines x.src.data)[n + j] := by
      have hlf := rawLines_lf x.src.data (i := n + j) (List.getElem?_eq_getElem hin) hlt'
      rcases eolOf_cases (rawLines x.src.data)[n + j] with h | h | h
      · unfold eolOf at h; rw [hlf] at h; simp only [if_true] at h; split at h <;> cases h
      · rw [h] at hc ⊢; rw [← hc]; rfl
      · rw [h] at hc ⊢; rw [← hc]; rfl
    have hl : l = (rawLines x.src.data)[n + j + 1] := by
      rw [e1]; congr 1
    refine .inr ⟨_, hap, h2, ⟨h2.base, ?_, by omega, ?_, ?_⟩, rfl, rfl, by simp,
      if a.crlf then [CR, LF] else [LF], chop l, rfl, ?_⟩
    · show a.ln + 1 = _; omega
    · show (a.look ++ if a.crlf = true then [CR, LF] else [LF]) ++ chop l = _
      rw [joined_succ hlt', heol, hl, h.look]
    · show _ = some (eolOf l == [CR, LF])
      rw [← Nat.add_assoc, List.getElem?_eq_getElem hlt', hl]; rfl
    · split <;> exact ⟨rfl, by simp⟩

/-! ## The outcome -/

/-- the row that is not the text of some lines: it is too long, or the input ends -/
def BadRow (x : Ctx) (n : Nat) (a : MRd) (m : Bytes) (a1 : MRd) : Prop :=
  Kep x a a1 ∧ ∃ k, a1.ln = n + k + 1 ∧
    ((x.RowTooLong n k ∧ m = Conv.msgMultilineLimit) ∨
     (x.RowOpen n ∧ n + k + 1 = (rawLines x.src.data).length ∧
      (x.cfg.Escaped (x.joined n k) ∧ m = Spl.msgUnterminatedEscape ∨
       ¬ x.cfg.Escaped (x.joined n k) ∧ m = Spl.msgUnterminatedQuote)))

/-- an error of the converter itself -/
def FailR (x : Ctx) {α : Type} (v : α) (r : Res MRd α) (m : Bytes) (a1 : MRd) : Prop :=
  if x.cfg.mode = .throw then r = .exc m a1
  else r = .ok v a1 ∧ a1.next.err.valid x.cfg.mode = false ∧ (x.cfg.mode = .string → a1.next.err.msg = m)

theorem FailR.pres {x : Ctx} {r : Res MRd Unit} {m : Bytes} {a1 : MRd} (h : FailR x () r m a1) : PResR x r (.error m) a1 := by
  unfold FailR at h
  unfold PResR
  simp only
  split at h
  · rename_i hm; rw [if_pos hm]; exact h
  · rename_i hm; rw [if_neg hm]; exact ⟨h.1, .inl h.2⟩

theorem FailR.bind {x : Ctx} {α β : Type} {v : α} {w : β} {m : M MRd α} {f : α → M MRd β} {a a1 : MRd} {msg : Bytes}
    (h : FailR x v (m a) msg a1) (hf : f v a1 = .ok w a1) : FailR x w ((m >>= f) a) msg a1 := by
  unfold FailR at h ⊢
  split at h
  · rename_i hm; rw [if_pos hm, M.bind_of_exc h]
  · rename_i hm; rw [if_neg hm, M.bind_of_ok h.1, hf]; exact ⟨rfl, h.2⟩

theorem failLimit_fail {x : Ctx} {a : MRd} (h : MBase x a) : ∃ a1, FailR x () (MRd.failLimit x.cfg a) Conv.msgMultilineLimit a1 ∧
    Kep x a a1 ∧ a1.ln = a.ln := by
  unfold FailR MRd.failLimit
  by_cases hm : x.cfg.mode = .throw
  · simp only [if_pos hm]; exact ⟨_, rfl, Kep.slot h _, rfl⟩
  · simp only [if_neg hm]
    refine ⟨_, ⟨rfl, ErrSt.valid_set hm (by decide) _, fun hs => ?_⟩, Kep.slot h _, rfl⟩
    simp [hs, ErrSt.set]

theorem failOpen_fail {x : Ctx} {a : MRd} {m : Bytes} (hne : m ≠ []) (h : MBase x a) : ∃ a1, FailR x () (MRd.failOpen x.cfg m a) m a1 ∧
    Kep x a a1 ∧ a1.ln = a.ln := by
  unfold FailR MRd.failOpen
  cases hm : x.cfg.mode with
  | throw => simp only [if_true]; exact ⟨_, rfl, Kep.slot h _, rfl⟩
  | bool =>
    simp only [reduceCtorEq, if_false]
    exact ⟨_, ⟨rfl, rfl, fun hs => by cases hs⟩, Kep.slot h _, rfl⟩
  | string =>
    simp only [reduceCtorEq, if_false]
    exact ⟨_, ⟨rfl, by simpa [ErrSt.valid] using hne, fun _ => rfl⟩, Kep.slot h _, rfl⟩

/-- the row goes on up to here -/
def Upto (x : Ctx) (n j : Nat) : Prop := ∀ i, i < j → x.GoesOn (x.joined n i) ∧ ¬ x.cfg.Limit i

theorem Upto.succ {x : Ctx} {n j : Nat} (h : Upto x n j) (hg : x.GoesOn (x.joined n j)) (hl : ¬ x.cfg.Limit j) : Upto x n (j + 1) := by
  intro i hi
  by_cases h' : i < j
  · exact h i h'
  · have : i = j := by omega
    subst this; exact ⟨hg, hl⟩

theorem Upto.tooLong {x : Ctx} {n j : Nat} (h : Upto x n j) (hin : n + j < (rawLines x.src.data).length)
    (hg : x.GoesOn (x.joined n j)) (hl : x.cfg.Limit j) : x.RowTooLong n j :=
  ⟨by simpa [lines] using hin, hg, hl, h⟩

theorem Upto.open {x : Ctx} {n j : Nat} (h : Upto x n j) (hin : n + j + 1 = (rawLines x.src.data).length)
    (hg : x.GoesOn (x.joined n j)) (hl : ¬ x.cfg.Limit j) : x.RowOpen n := by
  intro i hi
  have : n + i < (rawLines x.src.data).length := by simpa [lines] using hi
  exact h.succ hg hl i (by omega)

theorem escapeLoop_join {x : Ctx} (hml : x.cfg.multiline = true) (pre : Bytes) (before n : Nat) : ∀ (f j : Nat) (a : MRd),
    a.todo.length < f → MJoin x n j a → Upto x n j →
    (∀ r, MRd.trailing x.cfg (pre ++ (a.look ++ r).drop before) = MRd.trailing x.cfg (a.look ++ r)) →
    (∃ j' a', MRd.escapeLoop x pre before f j a = .ok (some j') a' ∧ Kep x a a' ∧ MJoin x n j' a' ∧ Upto x n j' ∧
      ¬ x.cfg.Escaped (x.joined n j') ∧ a'.next.err = a.next.err ∧ a'.next.serr = a.next.serr ∧
      ∃ r, a'.look = a.look ++ r) ∨
    (∃ m a1, FailR x none (MRd.escapeLoop x pre before f j a) m a1 ∧ BadRow x n a m a1) := by
  intro f
  induction f with
  | zero => intro j a h; omega
  | succ f ih =>
    intro j a hf h hu hr
    unfold MRd.escapeLoop
    simp only [M.get_bind]
    have h0 := hr []
    simp only [List.append_nil] at h0
    have hodd : MRd.oddTail x.cfg (pre ++ a.look.drop before) = true ↔ x.cfg.Escaped (x.joined n j) := by
      unfold MRd.oddTail
      rw [h0, h.look]
      unfold Cfg.Escaped MRd.trailing
      simp
    by_cases ho : MRd.oddTail x.cfg (pre ++ a.look.drop before) = true
    · rw [if_pos ho]
      have hesc := hodd.mp ho
      by_cases hl : x.cfg.mlLimit > 0 ∧ j ≥ x.cfg.mlLimit
      · rw [if_pos hl]
        obtain ⟨a1, g1, g2, g3⟩ := failLimit_fail h.base
        refine .inr ⟨_, a1, g1.bind rfl, g2, j, by rw [g3, h.ln], .inl ⟨hu.tooLong h.inside (.inl hesc) hl, rfl⟩⟩
      · rw [if_neg hl]
        rcases append_join hml h with ⟨e0, a', e1, e2, e3, e4, e5⟩ | ⟨a', e1, e2, e3, e4, e5, e6, eol, t, e7, e8, e9⟩
        · rw [M.bind_of_ok e1]
          simp only [Bool.false_eq_true, if_false]
          obtain ⟨a1, g1, g2, g3⟩ := failOpen_fail (m := Spl.msgUnterminatedEscape) (by decide) e2.base
          refine .inr ⟨_, a1, g1.bind rfl, e2.trans g2, j, by rw [g3, e3, h.ln], .inr ⟨hu.open e0 (.inl hesc) hl, e0, .inl ⟨hesc, rfl⟩⟩⟩
        · rw [M.bind_of_ok e1]
          simp only [if_true]
          have hr' : ∀ r, MRd.trailing x.cfg (pre ++ (a'.look ++ r).drop before) = MRd.trailing x.cfg (a'.look ++ r) := by
            intro r
            rw [e7]
            have := hr (eol ++ t ++ r)
            simpa [List.append_assoc] using this
          rcases ih (j + 1) a' (by omega) e3 (hu.succ (.inl hesc) hl) hr' with
            ⟨j', a2, g1, g2, g3, g4, g5, g6, g7, r, g8⟩ | ⟨m, a1, g1, g2, k, g3⟩
          · exact .inl ⟨j', a2, g1, e2.trans g2, g3, g4, g5, g6.trans e4, g7.trans e5, eol ++ t ++ r, by rw [g8, e7]; simp⟩
          · exact .inr ⟨m, a1, g1, e2.trans g2, k, g3⟩
    · rw [if_neg ho]
      exact .inl ⟨j, a, rfl, ⟨h.base, rfl, rfl, rfl, Nat.le_refl _, Nat.le_refl _⟩, h, hu, fun h => ho (hodd.mpr h), rfl, rfl, [], by simp⟩

theorem escapeLoopIf_join {x : Ctx} (hml : x.cfg.multiline = true) (pre : Bytes) (before n : Nat) {j : Nat} {a : MRd}
    (h : MJoin x n j a) (hu : Upto x n j)
    (hr : ∀ r, MRd.trailing x.cfg (pre ++ (a.look ++ r).drop before) = MRd.trailing x.cfg (a.look ++ r)) :
    (∃ j' a', MRd.escapeLoopIf x pre before j a = .ok (some j') a' ∧ Kep x a a' ∧ MJoin x n j' a' ∧ Upto x n j' ∧
      ¬ x.cfg.Escaped (x.joined n j') ∧ a'.next.err = a.next.err ∧ a'.next.serr = a.next.serr ∧
      ∃ r, a'.look = a.look ++ r) ∨
    (∃ m a1, FailR x none (MRd.escapeLoopIf x pre before j a) m a1 ∧ BadRow x n a m a1) := by
  unfold MRd.escapeLoopIf
  split
  · exact escapeLoop_join hml pre before n _ _ _ h.base.todo_lt h hu hr
  · rename_i he
    refine .inl ⟨j, a, rfl, ⟨h.base, rfl, rfl, rfl, Nat.le_refl _, Nat.le_refl _⟩, h, hu, ?_, rfl, rfl, [], by simp⟩
    have he : x.cfg.escape = [] := by simpa [hml] using he
    unfold Cfg.Escaped
    rw [he]
    have : List.takeWhile (fun x => decide (x ∈ ([] : Bytes))) (x.joined n j).reverse = [] := by
      cases (x.joined n j).reverse <;> simp
    rw [this]; simp

/-- what a text that is a complete row yields; `N`: the size the reported positions are counted in -/
def textRes (x : Ctx) (N : Nat) (t : Bytes) : Except Bytes (List Bytes) :=
  match endError x.cfg N (decodeRow x.cfg x.delim t).2 with
  | some m => .error m
  | none => .ok (decodeRow x.cfg x.delim t).1

/-- the row that is the text of some lines -/
def GoodRow (x : Ctx) (n : Nat) (a : MRd) (res : Except Bytes (List Bytes)) (a1 : MRd) : Prop :=
  Kep x a a1 ∧ a1.next.err.valid x.cfg.mode = true ∧ ∃ k, a1.ln = n + k + 1 ∧ x.RowTo n k ∧
    (if cutNul (x.joined n k) = [] then res = (if a.next.serr.valid x.cfg.mode = false then .error a.next.serr.msg else .ok [])
     else ∃ N, (k = 0 → N = (cutNul (x.joined n k)).length) ∧ res = textRes x N (cutNul (x.joined n k)))

def RowEnd (x : Ctx) (n : Nat) (a : MRd) (r : Res MRd Unit) : Prop :=
  ∃ res a1, PResR x r res a1 ∧ ((∃ m, res = .error m ∧ BadRow x n a m a1) ∨ GoodRow x n a res a1)

theorem settle_good {x : Ctx} {fs : List Bytes} {e : End} {a : MRd} {N : Nat}
    (hv : a.next.err.valid x.cfg.mode = true) (h : e.isOpenQuote = false) :
    ∃ s, PResR x (MRd.settle x.cfg N fs e a) (match endError x.cfg N e with | some m => .error m | none => .ok fs)
      { a with next := s } ∧ s.err = a.next.err := by
  unfold MRd.settle PResR
  cases he : endError x.cfg N e with
  | some m =>
    simp only
    by_cases hm : x.cfg.mode = .throw
    · simp only [if_pos hm]; exact ⟨_, rfl, rfl⟩
    · simp only [if_neg hm]
      refine ⟨_, ⟨rfl, .inr ⟨hv, ErrSt.valid_set hm (endError_ne_nil he) _, fun hs => ?_⟩⟩, rfl⟩
      simp [hs, ErrSt.set]
  | none =>
    simp only [h, Bool.false_eq_true, if_false]
    exact ⟨_, ⟨rfl, hv, ErrSt.valid_clear _ _, rfl⟩, rfl⟩

theorem PResR.bind {x : Ctx} {m : M MRd Unit} {f : Unit → M MRd Unit} {a a1 : MRd} {res : Except Bytes (List Bytes)}
    (h : PResR x (m a) res a1) (hf : f () a1 = .ok () a1) : PResR x ((m >>= f) a) res a1 := by
  unfold PResR at h ⊢
  cases res with
  | ok cols =>
    simp only at h ⊢
    rw [M.bind_of_ok h.1, hf]; exact ⟨rfl, h.2⟩
  | error e =>
    simp only at h ⊢
    split at h
    · rename_i hm; rw [if_pos hm, M.bind_of_exc h]
    · rename_i hm; rw [if_neg hm, M.bind_of_ok h.1, hf]; exact ⟨rfl, h.2⟩

theorem joined_ne {x : Ctx} {n j : Nat} (h : n + (j + 1) < (rawLines x.src.data).length) : x.joined n (j + 1) ≠ [] := by
  rw [joined_succ h]
  have hlf := rawLines_lf x.src.data (i := n + j) (List.getElem?_eq_getElem (by omega)) (by omega)
  unfold eolOf
  rw [hlf]
  simp only [if_true]
  split <;> simp

theorem joined_prefix {x : Ctx} {n j : Nat} : ∀ {k : Nat}, j ≤ k → n + k < (rawLines x.src.data).length →
    ∃ r, x.joined n k = x.joined n j ++ r := by
  intro k
  induction k with
  | zero => intro h _; exact ⟨[], by rw [show j = 0 by omega]; simp⟩
  | succ k ih =>
    intro h hk
    by_cases hj : j = k + 1
    · subst hj; exact ⟨[], by simp⟩
    · obtain ⟨r, hr⟩ := ih (by omega) (by omega)
      exact ⟨_, by rw [joined_succ hk, hr, List.append_assoc, List.append_assoc]⟩

theorem cutNul_append_of {t : Bytes} (h : NUL ∉ t) (r : Bytes) : cutNul (t ++ r) = t ++ cutNul r := by
  unfold cutNul
  rw [List.takeWhile_append_of_pos]
  intro b hb
  simp only [ne_eq, decide_not, Bool.not_eq_eq_eq_not, Bool.not_true, decide_eq_false_iff_not]
  exact fun e => h (e ▸ hb)

theorem cutNul_joined_ne {x : Ctx} {n j k : Nat} (h : j ≤ k) (hk : n + k < (rawLines x.src.data).length)
    (hn : NUL ∉ x.joined n j) (hne : x.joined n j ≠ []) : cutNul (x.joined n k) ≠ [] := by
  obtain ⟨r, hr⟩ := joined_prefix h hk
  rw [hr, cutNul_append_of hn]
  simp [hne]

/-- no NUL behind the begin of an unclosed quoted field -/
def Quotes (x : Ctx) : Prop :=
  ∀ n k, n + k < (lines x.src.data).length → x.cfg.InQuote x.delim (cutNul (x.joined n k)) → NUL ∉ x.joined n k

theorem notInQuote {x : Ctx} {t : Bytes} (h : (decodeRow x.cfg x.delim t).2.isOpenQuote = false) : ¬ x.cfg.InQuote x.delim t := by
  rintro ⟨a, ha⟩
  rw [ha] at h; cases h

theorem leftover_self (t : Bytes) (n : Nat) : MRd.leftover t t n = [] := by simp [MRd.leftover]

/-- what is behind the end of a line may be cut off -/
theorem LineJoint.joint {c : Cfg} {d more : Bytes} (h : LineJoint c d) (hm : more.head? = some LF ∨ more.head? = some CR) :
    Joint c d (cutNul more) := by
  rcases h with h | ⟨h0, h1, h2⟩
  · exact .inl h
  · refine .inr ⟨h0, fun z hz => ?_⟩
    cases more with
    | nil => rcases hm with h | h <;> cases h
    | cons y ys =>
      simp only [List.head?_cons, Option.some.injEq] at hm
      have : cutNul (y :: ys) = y :: cutNul ys := by
        unfold cutNul
        rw [List.takeWhile_cons_of_pos]
        rcases hm with rfl | rfl <;> decide
      rw [this] at hz
      simp only [List.head?_cons, Option.some.injEq] at hz
      subst hz
      rcases hm with rfl | rfl
      · exact h1
      · exact h2

theorem quoteLoop_join {x : Ctx} (hx : x.Ok) (hc : LineJoint x.cfg x.delim) (hlf : LF ∉ x.cfg.escape)
    (hml : x.cfg.multiline = true) (hp : Quotes x) (n : Nat) :
    ∀ (f j : Nat) (fs : List Bytes) (acc : Bytes) (N o : Nat) (a : MRd), a.todo.length < f → MJoin x n j a → Upto x n j →
    NUL ∉ x.joined n j → decodeRow x.cfg x.delim (x.joined n j) = (fs, .openQuote acc) → ¬ x.cfg.Escaped (x.joined n j) →
    a.next.err.valid x.cfg.mode = true →
    RowEnd x n a (MRd.quoteLoop x f j fs acc N o [] a) := by
  intro f
  induction f with
  | zero => intro j fs acc N o a h; omega
  | succ f ih =>
    intro j fs acc N o a hf h hu hjn hd hne hv
    have hjne : x.joined n j ≠ [] := by
      intro h0
      have := decodeRow_nil_closed x.cfg x.delim
      rw [← h0, hd] at this
      cases this
    have hq : x.GoesOn (x.joined n j) := .inr ⟨acc, by rw [cutNul_of_not_mem hjn, hd]⟩
    unfold MRd.quoteLoop
    simp only [M.get_bind, List.append_nil, List.nil_append]
    by_cases hl : x.cfg.mlLimit > 0 ∧ j ≥ x.cfg.mlLimit
    · rw [if_pos hl]
      obtain ⟨a1, g1, g2, g3⟩ := failLimit_fail h.base
      exact ⟨_, a1, g1.pres, .inl ⟨_, rfl, g2, j, by rw [g3, h.ln], .inl ⟨hu.tooLong h.inside hq hl, rfl⟩⟩⟩
    · rw [if_neg hl]
      rcases append_join hml h with ⟨e0, a', e1, e2, e3, e4, e5⟩ | ⟨a', e1, e2, e3, e4, e5, e6, eol, t, e7, e8, e9⟩
      · rw [M.bind_of_ok e1]
        simp only [Bool.false_eq_true, if_false]
        obtain ⟨a1, g1, g2, g3⟩ := failOpen_fail (m := Spl.msgUnterminatedQuote) (by decide) e2.base
        exact ⟨_, a1, g1.pres, .inl ⟨_, rfl, e2.trans g2, j, by rw [g3, e3, h.ln], .inr ⟨hu.open e0 hq hl, e0, .inr ⟨hne, rfl⟩⟩⟩⟩
      · rw [M.bind_of_ok e1]
        simp only [if_true]
        have hr : ∀ r, MRd.trailing x.cfg (acc ++ (a'.look ++ r).drop a.look.length) = MRd.trailing x.cfg (a'.look ++ r) := by
          intro r
          have hP : ∀ p : Bytes, ∀ z, (p ++ eol).getLast? = some z → z ∉ x.cfg.escape := by
            intro p z hz
            rw [List.getLast?_append, e8] at hz
            cases hz; exact hlf
          rw [e7, show a.look ++ eol ++ t ++ r = a.look ++ (eol ++ (t ++ r)) by simp, List.drop_left' rfl,
            ← List.append_assoc acc, ← List.append_assoc a.look, trailing_append (hP acc), trailing_append (hP a.look)]
        rcases escapeLoopIf_join hml acc a.look.length n e3 (hu.succ hq hl) hr with
          ⟨j', a2, g1, g2, g3, g4, g5, g6, g7, r, g8⟩ | ⟨m, a1, g1, g2, k, g3⟩
        · rw [M.bind_of_ok g1]
          simp only [M.get_bind]
          obtain ⟨more, hmore, hhead⟩ : ∃ more, a2.look = a.look ++ more ∧ (more.head? = some LF ∨ more.head? = some CR) :=
            ⟨eol ++ t ++ r, by rw [g8, e7]; simp, by
              rcases e9 with h | h <;> cases eol with
              | nil => cases h
              | cons z zs => simp only [List.cons_append, List.head?_cons] at h ⊢; simp [h]⟩
          have hdrop : a2.look.drop a.look.length = more := by rw [hmore, List.drop_left' rfl]
          have hcut : cutNul (x.joined n j') = x.joined n j ++ cutNul more := by
            rw [← g3.look, hmore, h.look, cutNul_append_of hjn]
          rw [hdrop, MRd.resplitText_settle]
          have hleft : ∀ i, NUL ∉ more → MRd.leftover more (cutNul more) i = [] := by
            intro i hmn; rw [cutNul_of_not_mem hmn, leftover_self]
          have hres := decodeRow_resume hx.wf (LineJoint.joint hc hhead) hd
          rw [← hcut] at hres
          have hmn : (decode x.cfg x.delim .quoted acc (cutNul more)).2.isOpenQuote = true → NUL ∉ more := by
            intro ho
            have : NUL ∉ x.joined n j' := by
              refine hp n j' (by simpa [lines] using g3.inside) ?_
              cases hd2 : (decode x.cfg x.delim .quoted acc (cutNul more)).2 with
              | openQuote acc' => exact ⟨acc', by rw [hres]; exact hd2⟩
              | _ => rw [hd2] at ho; cases ho
            rw [← g3.look, hmore] at this
            exact fun h => this (by simp [h])
          have hnn : NUL ∉ more → NUL ∉ x.joined n j' := by
            intro h1 h2
            rw [← g3.look, hmore, h.look] at h2
            rcases List.mem_append.mp h2 with h2 | h2
            · exact hjn h2
            · exact h1 h2
          generalize cutNul more = more' at hres hmn hleft hcut
          generalize hD : decode x.cfg x.delim .quoted acc more' = D at hres hmn
          have hk : Kep x a a2 := e2.trans g2
          have hv2 : a2.next.err.valid x.cfg.mode = true := by rw [g6, e4]; exact hv
          have hjpos : j < j' := by
            have h1 := g2.ln; rw [g3.ln, e3.ln] at h1; omega
          have hdone : D.2.isOpenQuote = false → ∀ g : Unit → M MRd Unit, (∀ b, g () b = .ok () b) →
              RowEnd x n a ((MRd.settle x.cfg (N - o + acc.length + more'.length) (fs ++ D.1) D.2 >>= g) a2) := by
            intro ho g hg
            obtain ⟨s, p1, p2⟩ := settle_good (fs := fs ++ D.1) (N := N - o + acc.length + more'.length) hv2 ho
            have hstop : ¬ x.GoesOn (x.joined n j') := by
              rintro (h | h)
              · exact g5 h
              · exact notInQuote (by rw [hres]; exact ho) h
            refine ⟨_, _, p1.bind (hg _), .inr ⟨hk.trans (Kep.slot g2.base s), by show s.err.valid _ = true; rw [p2]; exact hv2, j', g3.ln, ⟨by simpa [lines] using g3.inside, hstop, g4⟩, ?_⟩⟩
            rw [if_neg (cutNul_joined_ne (Nat.le_of_lt hjpos) g3.inside hjn hjne)]
            refine ⟨N - o + acc.length + more'.length, by intro h; omega, ?_⟩
            unfold textRes
            rw [hres]
          cases hD2 : D.2 with
          | openQuote acc' =>
            have hs : ∃ s, MRd.settle x.cfg (N - o + acc.length + more'.length) (fs ++ D.1) (.openQuote acc') a2 = .ok () { a2 with next := s } ∧
                s.err = a2.next.err := by
              unfold MRd.settle
              have : endError x.cfg (N - o + acc.length + more'.length) (.openQuote acc') = none := by
                unfold endError; simp [End.throwError, End.stringError, hml]
              rw [this]
              exact ⟨_, rfl, rfl⟩
            obtain ⟨s, hs, hse⟩ := hs
            have hmn' : NUL ∉ more := hmn (by rw [hD2]; rfl)
            rw [M.bind_of_ok hs]
            simp only [hleft _ hmn']
            obtain ⟨res, a1, p1, p2⟩ := ih j' (fs ++ D.1) acc' (N - o + acc.length + more'.length)
              (openLen x.cfg x.delim .quoted acc more') { a2 with next := s } (by have := g2.fewer; show a2.todo.length < f; omega)
              (g3.slot s) g4 (hnn hmn') (by rw [← cutNul_of_not_mem (hnn hmn'), hres, hD2]) g5 (by show s.err.valid _ = true; rw [hse]; exact hv2)
            have hk' : Kep x a { a2 with next := s } := hk.trans (Kep.slot g2.base s)
            refine ⟨res, a1, p1, ?_⟩
            rcases p2 with ⟨m, p2, p3, p4⟩ | ⟨p3, pv, k, p4, p5, p6⟩
            · exact .inl ⟨m, p2, hk'.trans p3, p4⟩
            · refine .inr ⟨hk'.trans p3, pv, k, p4, p5, ?_⟩
              have hkj : j ≤ k := by
                have h1 := p3.ln
                rw [p4] at h1
                have h2 : a2.ln ≤ n + k + 1 := h1
                rw [g3.ln] at h2; omega
              rw [if_neg (cutNul_joined_ne hkj (by simpa [lines] using p5.inside) hjn hjne)] at p6 ⊢
              exact p6
          | mismatch p q => rw [← hD2]; exact hdone (by rw [hD2]; rfl) _ (fun _ => by rw [hD2]; rfl)
          | eol => rw [← hD2]; exact hdone (by rw [hD2]; rfl) _ (fun _ => by rw [hD2]; rfl)
          | eolEscape => rw [← hD2]; exact hdone (by rw [hD2]; rfl) _ (fun _ => by rw [hD2]; rfl)
          | openEscape => rw [← hD2]; exact hdone (by rw [hD2]; rfl) _ (fun _ => by rw [hD2]; rfl)
        · have := g1.bind (f := fun v => match v with
            | none => pure ()
            | some limit' => do
              let a_1 ← M.get
              let t := a_1.look.drop a.look.length
              let more := cutNul t
              MRd.resplitText x.cfg x.delim fs acc N o more
              match (decode x.cfg x.delim .quoted acc more).2 with
              | .openQuote acc' =>
                let n' := N - o + acc.length + more.length
                let o' := openLen x.cfg x.delim .quoted acc more
                MRd.quoteLoop x f limit' (fs ++ (decode x.cfg x.delim .quoted acc more).1) acc' n' o'
                  (MRd.leftover t more (n' - o' + acc'.length - (N - o + acc.length)))
              | _ => pure ()) (w := ()) rfl
          exact ⟨_, a1, this.pres, .inl ⟨m, rfl, e2.trans g2, k, g3⟩⟩

/-- `parse` of a row that starts in line `n`, with multiline -/
theorem parse_join {x : Ctx} (hx : x.Ok) (hc : LineJoint x.cfg x.delim) (hlf : LF ∉ x.cfg.escape) (hml : x.cfg.multiline = true)
    (hp : Quotes x) {n : Nat} {a : MRd} (h : MJoin x n 0 a) (hv : a.next.err.valid x.cfg.mode = true) :
    RowEnd x n a (MRd.parse x a) := by
  unfold MRd.parse
  rcases escapeLoopIf_join hml [] 0 n h (fun i hi => by omega) (fun r => by simp) with
    ⟨j', a2, g1, g2, g3, g4, g5, g6, g7, r, g8⟩ | ⟨m, a1, g1, g2, k, g3⟩
  · rw [M.bind_of_ok g1]
    simp only [M.get_bind]
    have hn : x.cfg.InQuote x.delim (cutNul (x.joined n j')) → NUL ∉ x.joined n j' := hp n j' (by simpa [lines] using g3.inside)
    have hleft : ∀ i, NUL ∉ x.joined n j' → MRd.leftover (x.joined n j') (cutNul (x.joined n j')) i = [] := by
      intro i h; rw [cutNul_of_not_mem h, leftover_self]
    rw [show a2.look = x.joined n j' from g3.look]
    have hv2 : a2.next.err.valid x.cfg.mode = true := by rw [g6]; exact hv
    by_cases ht : cutNul (x.joined n j') = []
    · rw [ht, M.bind_of_ok (show MRd.splitText x.cfg x.delim [] a2 = .ok () _ from rfl)]
      simp only [ne_eq, not_true_eq_false, and_false, if_false]
      have hstop : ¬ x.GoesOn (x.joined n j') := by
        rintro (h | h)
        · exact g5 h
        · refine notInQuote ?_ h
          rw [ht]
          exact decodeRow_nil_closed x.cfg x.delim
      refine ⟨if a.next.serr.valid x.cfg.mode = false then .error a.next.serr.msg else .ok [],
        { a2 with next := { a2.next with cols := some [] } }, ?_, .inr ⟨g2.trans (Kep.slot g2.base _), hv2, j', g3.ln,
        ⟨by simpa [lines] using g3.inside, hstop, g4⟩, by rw [if_pos ht]⟩⟩
      by_cases hs : a.next.serr.valid x.cfg.mode = false
      · have hth : x.cfg.mode ≠ .throw := by intro h; rw [h] at hs; simp [ErrSt.valid] at hs
        rw [if_pos hs]
        simp only [PResR, if_neg hth]
        exact ⟨rfl, .inr ⟨hv2, by rw [g7]; exact hs, fun _ => by rw [g7]⟩⟩
      · rw [if_neg hs]
        exact ⟨rfl, hv2, by show a2.next.serr.valid _ = true; rw [g7]; simpa using hs, rfl⟩
    · rw [MRd.splitText_settle ht]
      have hdone : (decodeRow x.cfg x.delim (cutNul (x.joined n j'))).2.isOpenQuote = false → ∀ g : Unit → M MRd Unit, (∀ b, g () b = .ok () b) →
          RowEnd x n a ((MRd.settle x.cfg (cutNul (x.joined n j')).length (decodeRow x.cfg x.delim (cutNul (x.joined n j'))).1
            (decodeRow x.cfg x.delim (cutNul (x.joined n j'))).2 >>= g) a2) := by
        intro ho g hg
        obtain ⟨s, p1, p2⟩ := settle_good (fs := (decodeRow x.cfg x.delim (cutNul (x.joined n j'))).1) (N := (cutNul (x.joined n j')).length) hv2 ho
        have hstop : ¬ x.GoesOn (x.joined n j') := by
          rintro (h | h)
          · exact g5 h
          · exact notInQuote ho h
        refine ⟨_, _, p1.bind (hg _), .inr ⟨g2.trans (Kep.slot g2.base s), by show s.err.valid _ = true; rw [p2]; exact hv2, j', g3.ln, ⟨by simpa [lines] using g3.inside, hstop, g4⟩, ?_⟩⟩
        rw [if_neg ht]
        exact ⟨_, fun _ => rfl, rfl⟩
      by_cases hq : x.cfg.quote = none
      · refine hdone (decodeRow_noquote hq _ _) _ fun b => ?_
        rw [if_neg (by simp [hq])]; rfl
      · cases hD2 : (decodeRow x.cfg x.delim (cutNul (x.joined n j'))).2 with
        | openQuote acc' =>
          have hs : ∃ s, MRd.settle x.cfg (cutNul (x.joined n j')).length (decodeRow x.cfg x.delim (cutNul (x.joined n j'))).1 (.openQuote acc') a2 =
              .ok () { a2 with next := s } ∧ s.err = a2.next.err := by
            unfold MRd.settle
            have : endError x.cfg (cutNul (x.joined n j')).length (.openQuote acc') = none := by
              unfold endError; simp [End.throwError, End.stringError, hml]
            rw [this]
            exact ⟨_, rfl, rfl⟩
          obtain ⟨s, hs, hse⟩ := hs
          have hn' : NUL ∉ x.joined n j' := hn ⟨acc', hD2⟩
          rw [M.bind_of_ok hs, if_pos ⟨hml, hq, ht⟩]
          simp only [hleft _ hn']
          obtain ⟨res, a1, p1, p2⟩ := quoteLoop_join hx hc hlf hml hp n (Reader.bound x) j'
            (decodeRow x.cfg x.delim (cutNul (x.joined n j'))).1 acc' (cutNul (x.joined n j')).length (openLenRow x.cfg x.delim (cutNul (x.joined n j')))
            { a2 with next := s } (g3.slot s).base.todo_lt
            (g3.slot s) g4 hn' (by rw [← hD2, cutNul_of_not_mem hn']) g5 (by show s.err.valid _ = true; rw [hse]; exact hv2)
          have hk' : Kep x a { a2 with next := s } := g2.trans (Kep.slot g2.base s)
          refine ⟨res, a1, p1, ?_⟩
          rcases p2 with ⟨m, p2, p3, p4⟩ | ⟨p3, pv, k, p4, p5, p6⟩
          · exact .inl ⟨m, p2, hk'.trans p3, p4⟩
          · refine .inr ⟨hk'.trans p3, pv, k, p4, p5, ?_⟩
            have hkj : j' ≤ k := by
              have h1 := p3.ln
              rw [p4] at h1
              have h2 : a2.ln ≤ n + k + 1 := h1
              rw [g3.ln] at h2; omega
            rw [if_neg (cutNul_joined_ne hkj (by simpa [lines] using p5.inside) hn' (by rwa [cutNul_of_not_mem hn'] at ht))] at p6 ⊢
            exact p6
        | mismatch p q =>
          rw [← hD2]; refine hdone (by rw [hD2]; rfl) _ fun b => ?_
          rw [if_pos ⟨hml, hq, ht⟩, hD2]; rfl
        | eol =>
          rw [← hD2]; refine hdone (by rw [hD2]; rfl) _ fun b => ?_
          rw [if_pos ⟨hml, hq, ht⟩, hD2]; rfl
        | eolEscape =>
          rw [← hD2]; refine hdone (by rw [hD2]; rfl) _ fun b => ?_
          rw [if_pos ⟨hml, hq, ht⟩, hD2]; rfl
        | openEscape =>
          rw [← hD2]; refine hdone (by rw [hD2]; rfl) _ fun b => ?_
          rw [if_pos ⟨hml, hq, ht⟩, hD2]; rfl
  · refine ⟨_, a1, (FailR.bind (w := ()) g1 ?_).pres, .inl ⟨m, rfl, g2, k, g3⟩⟩
    rfl

end Ssp
