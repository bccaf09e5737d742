import Verif.Model.Line
import Verif.Spec.Lines
/-!
# The line readers return the next line
-/
namespace Ssp

open Io

/-! ## Lines -/

theorem upToLF_ne {t : Bytes} (h : t ≠ []) : upToLF t ≠ [] := by
  cases t with
  | nil => exact absurd rfl h
  | cons x xs => simp only [upToLF]; split <;> simp

theorem upToLF_prefix (t : Bytes) : ∃ r, t = upToLF t ++ r := by
  induction t with
  | nil => exact ⟨[], rfl⟩
  | cons x xs ih =>
    simp only [upToLF]
    split
    · exact ⟨xs, by simp⟩
    · obtain ⟨r, hr⟩ := ih
      exact ⟨r, by simp [← hr]⟩

theorem upToLF_split (t : Bytes) : t = upToLF t ++ t.drop (upToLF t).length := by
  obtain ⟨r, hr⟩ := upToLF_prefix t
  generalize upToLF t = u at *
  subst hr
  simp

theorem rawLines_cons {t : Bytes} (h : t ≠ []) : rawLines t = upToLF t :: rawLines (t.drop (upToLF t).length) := by
  induction t with
  | nil => exact absurd rfl h
  | cons x xs ih =>
    simp only [rawLines, upToLF]
    by_cases hx : x = LF
    · simp [hx]
    · simp only [hx, if_false]
      by_cases hn : xs = []
      · subst hn; simp [rawLines, upToLF]
      · rw [ih hn]; simp

theorem rawLines_flatten (t : Bytes) : (rawLines t).flatten = t := by
  induction t with
  | nil => rfl
  | cons x xs ih =>
    simp only [rawLines]
    split
    · simp [ih]
    · split
      · rename_i h; rw [h] at ih; simp at ih; simp [← ih]
      · rename_i l ls h; rw [h] at ih; simp at ih; simp [← ih]

theorem rawLines_ne_nil {t l : Bytes} (h : l ∈ rawLines t) : l ≠ [] := by
  induction t generalizing l with
  | nil => simp [rawLines] at h
  | cons x xs ih =>
    simp only [rawLines] at h
    split at h
    · simp only [List.mem_cons] at h
      rcases h with rfl | h
      · simp
      · exact ih h
    · split at h
      · simp only [List.mem_singleton] at h; subst h; simp
      · rename_i l' ls hl
        simp only [List.mem_cons] at h
        rcases h with rfl | h
        · simp
        · exact ih (by rw [hl]; simp [h])

/-- A raw line is the text before its terminator and the terminator. -/
theorem chop_eol (l : Bytes) : chop l ++ eolOf l = l := by
  unfold chop eolOf
  rcases List.eq_nil_or_concat l with rfl | ⟨l', x, rfl⟩
  · simp
  · simp only [List.concat_eq_append, List.getLast?_append, List.getLast?_singleton, Option.some_or, Option.some.injEq,
      List.dropLast_concat]
    by_cases hx : x = LF
    · simp only [hx, if_true]
      rcases List.eq_nil_or_concat l' with rfl | ⟨l'', y, rfl⟩
      · simp
      · simp only [List.concat_eq_append, List.getLast?_append, List.getLast?_singleton, Option.some_or, Option.some.injEq]
        by_cases hy : y = CR
        · simp [hy]
        · simp only [hy, if_false, List.length_append, List.length_singleton, Nat.add_sub_cancel]
          rw [show l''.length + 1 = (l'' ++ [y]).length by simp, List.take_left']
          rfl
    · simp only [hx, if_false, List.length_nil, Nat.sub_zero, List.append_nil, List.take_length]

/-- In the lines of a text only the last byte can be LF. -/
theorem rawLines_inner {t l : Bytes} (h : l ∈ rawLines t) : LF ∉ l.dropLast := by
  induction t generalizing l with
  | nil => simp [rawLines] at h
  | cons x xs ih =>
    simp only [rawLines] at h
    split at h
    · simp only [List.mem_cons] at h
      rcases h with rfl | h
      · simp
      · exact ih h
    · rename_i hx
      split at h
      · simp only [List.mem_singleton] at h; subst h; simp
      · rename_i l' ls hl
        simp only [List.mem_cons] at h
        rcases h with rfl | h
        · have hl0 : l' ≠ [] := rawLines_ne_nil (t := xs) (by rw [hl]; simp)
          have := ih (l := l') (by rw [hl]; simp)
          obtain ⟨y, ys, rfl⟩ := List.exists_cons_of_ne_nil hl0
          simp only [List.dropLast_cons_cons, List.mem_cons, not_or]
          exact ⟨fun h => hx h.symm, this⟩
        · exact ih (by rw [hl]; simp [h])

theorem mem_upToLF {t : Bytes} {x : Byte} (h : x ∈ upToLF t) : x ∈ t := by
  rw [upToLF_split t]; simp [h]

/-! ## The buffers -/

/-- The size variable of the line buffer is the size of the block. -/
def Io.Sized (s : Io) : Prop := s.n = s.mem.length

/-- Memory after `line` and a terminator were stored in a block with contents `old` that may have grown by `J`. -/
def Io.stored (line old J : Bytes) : Bytes := line ++ NUL :: (old.drop (line.length + 1) ++ J)

theorem realloc_apply (env : Env) (size : Nat) (s : Io) (h : s.mem.length ≤ size) :
    ∃ J, realloc env size s = .ok () { s with mem := s.mem ++ J, n := size, gen := s.gen + 1, tick := s.tick + 1 } ∧
      (s.mem ++ J).length = size := by
  refine ⟨(List.range (size - s.mem.length)).map (fun i => env.junk s.tick (s.mem.length + i)), ?_, ?_⟩
  · simp only [realloc, M.modify_apply, List.take_of_length_le h]
  · simp; omega

theorem reallocIf_spec (env : Env) (p : Prop) [Decidable p] (size : Nat) (s : Io) (h : p → s.mem.length ≤ size)
    (hs : s.Sized) : ∃ J s1, reallocIf env p size s = .ok () s1 ∧ s1.mem = s.mem ++ J ∧ s1.Sized ∧
      s1.curr = s.curr ∧ s1.fpos = s.fpos ∧ (p → s1.n = size) ∧ (¬ p → s1.n = s.n) := by
  by_cases hp : p
  · obtain ⟨J, e1, e2⟩ := realloc_apply env size s (h hp)
    refine ⟨J, { s with mem := s.mem ++ J, n := size, gen := s.gen + 1, tick := s.tick + 1 }, ?_, rfl, ?_, rfl, rfl,
      fun _ => rfl, fun h => absurd hp h⟩
    · simp only [reallocIf, hp, if_true]; exact e1
    · exact e2.symm
  · exact ⟨[], s, by simp [reallocIf, hp], by simp, hs, rfl, rfl, fun h => absurd h hp, fun _ => rfl⟩

theorem wr_ok {s : Io} {p : Nat} {b : Byte} (h : p < s.mem.length) : wr p b s = .ok () { s with mem := s.mem.set p b } := by
  simp [wr, h]

theorem set_append_right {a b : Bytes} {x y : Byte} : (a ++ x :: b).set a.length y = a ++ y :: b := by
  induction a with
  | nil => rfl
  | cons z zs ih => simp [ih]

/-- What the loops of the readers keep invariant: `used` bytes of the line are in the block. -/
structure Io.Progress (old line : Bytes) (s : Io) : Prop where
  sized : s.Sized
  mem : ∃ J, s.mem = line ++ (old.drop line.length ++ J)
  fit : old.length ≤ s.mem.length

theorem bufLoop_spec {env : Env} {d : Bytes} (f : Nat) :
    ∀ {old line : Bytes} {s : Io}, d.length - s.curr < f → s.curr ≤ d.length → Progress old line s →
    line.length < s.n → 2 ≤ s.n →
    ∃ J s', bufLoop env (some d) d.length f line.length s = .ok (line.length + (upToLF (d.drop s.curr)).length) s' ∧
      s'.mem = stored (line ++ upToLF (d.drop s.curr)) old J ∧ s'.Sized ∧
      s'.curr = s.curr + (upToLF (d.drop s.curr)).length ∧ s'.fpos = s.fpos := by
  induction f with
  | zero => intro old line s h; omega
  | succ f ih =>
    intro old line s hf hcur hp hn h2
    unfold bufLoop
    simp only [M.get_bind]
    by_cases hc : s.curr < d.length
    · simp only [hc, if_true]
      -- make room
      have hroom : ∃ s1, reallocIf env (line.length + 1 ≥ s.n) (s.n * 2) s = .ok () s1 ∧
          Progress old line s1 ∧ line.length + 1 < s1.n ∧ 2 ≤ s1.n ∧ s1.curr = s.curr ∧ s1.fpos = s.fpos := by
        obtain ⟨J, s1, e1, e2, e3, e4, e5, e6, e7⟩ := reallocIf_spec env (line.length + 1 ≥ s.n) (s.n * 2) s
          (by have := hp.sized; unfold Sized at this; omega) hp.sized
        refine ⟨s1, e1, ⟨e3, ?_, ?_⟩, ?_, ?_, e4, e5⟩
        · obtain ⟨J0, hJ0⟩ := hp.mem
          exact ⟨J0 ++ J, by simp [e2, hJ0]⟩
        · have := hp.fit; rw [e2]; simp; omega
        · by_cases hg : line.length + 1 ≥ s.n
          · rw [e6 hg]; omega
          · rw [e7 hg]; omega
        · by_cases hg : line.length + 1 ≥ s.n
          · rw [e6 hg]; omega
          · rw [e7 hg]; omega
      obtain ⟨s1, e1, p1, n1, n2, c1, f1⟩ := hroom
      have hget : d[s.curr]? = some d[s.curr] := List.getElem?_eq_getElem hc
      have hdrop : d.drop s.curr = d[s.curr] :: d.drop (s.curr + 1) := List.drop_eq_getElem_cons hc
      generalize d[s.curr] = x at hget hdrop
      have hmem1 : ∃ y J, s1.mem = line ++ y :: (old.drop (line.length + 1) ++ J) := by
        obtain ⟨J, hJ⟩ := p1.mem
        have hlen : line.length + 1 < s1.mem.length := by have := p1.sized; unfold Sized at this; omega
        cases hod : old.drop line.length with
        | nil =>
          rw [hod] at hJ
          cases J with
          | nil => rw [hJ] at hlen; simp at hlen; omega
          | cons y J =>
            refine ⟨y, J, ?_⟩
            rw [hJ]
            have : old.drop (line.length + 1) = [] := by
              rw [← List.drop_drop, hod]; rfl
            simp [this]
        | cons y r =>
          refine ⟨y, J, ?_⟩
          rw [hJ, hod]
          have : old.drop (line.length + 1) = r := by rw [← List.drop_drop, hod]; rfl
          simp [this]
      obtain ⟨y, J, hJ⟩ := hmem1
      have hlen1 : line.length + 1 < s1.mem.length := by have := p1.sized; unfold Sized at this; omega
      -- store the byte
      let s2 : Io := { s1 with curr := s1.curr + 1, mem := line ++ x :: (old.drop (line.length + 1) ++ J) }
      have hs2 : (do
          let c ← rdCsv (some d) s.curr
          M.modify fun s => { s with curr := s.curr + 1 }
          wr line.length c
          if c = LF then
            wr (line.length + 1) NUL
            pure (line.length + 1)
          else bufLoop env (some d) d.length f (line.length + 1) : M Io Nat) s1 =
        (if x = LF then (do wr (line.length + 1) NUL; pure (line.length + 1)) else bufLoop env (some d) d.length f (line.length + 1) : M Io Nat) s2 := by
        rw [M.bind_of_ok (a := x) (s' := s1) (by simp [rdCsv, hget])]
        simp only [M.modify_bind]
        rw [M.bind_of_ok (wr_ok (s := { s1 with curr := s1.curr + 1 }) (p := line.length) (b := x) (by simp; omega))]
        simp only [hJ, set_append_right]
        rfl
      rw [M.bind_of_ok e1, hs2]
      have hlen2 : s2.mem.length = s1.mem.length := by simp [s2, hJ]
      by_cases hx : x = LF
      · simp only [hx, if_true]
        have hup : upToLF (d.drop s.curr) = [x] := by rw [hdrop]; simp [upToLF, hx]
        have hm3 : ∃ J', s2.mem.set (line.length + 1) NUL = stored (line ++ [x]) old J' := by
          have hl : (line ++ [x]).length = line.length + 1 := by simp
          have hz : ∃ z r, old.drop (line.length + 1) ++ J = z :: r := by
            cases hz : old.drop (line.length + 1) ++ J with
            | nil => rw [hJ, hz] at hlen1; simp at hlen1
            | cons z r => exact ⟨z, r, rfl⟩
          obtain ⟨z, r, hz⟩ := hz
          have : s2.mem = (line ++ [x]) ++ z :: r := by simp [s2, hz]
          rw [this, ← hl, set_append_right]
          unfold stored
          rw [hl]
          cases ho : old.drop (line.length + 1) with
          | nil =>
            rw [ho] at hz
            refine ⟨r, ?_⟩
            rw [show old.drop (line.length + 1 + 1) = [] by rw [← List.drop_drop, ho]; rfl]
            simp
          | cons z' r' =>
            rw [ho] at hz
            simp at hz
            refine ⟨J, ?_⟩
            rw [show old.drop (line.length + 1 + 1) = r' by rw [← List.drop_drop, ho]; rfl]
            simp [hz.2]
        obtain ⟨J', hJ'⟩ := hm3
        refine ⟨J', { s2 with mem := s2.mem.set (line.length + 1) NUL }, ?_, ?_, ?_, ?_, ?_⟩
        · rw [M.bind_of_ok (wr_ok (by omega))]; simp [hup]
        · rw [hup]; exact hJ'
        · have := p1.sized; unfold Sized at this ⊢
          show s1.n = (s2.mem.set _ _).length
          rw [List.length_set, hlen2]; exact this
        · simp [s2, c1, hup]
        · exact f1
      · simp only [hx, if_false]
        have hup : upToLF (d.drop s.curr) = x :: upToLF (d.drop (s.curr + 1)) := by rw [hdrop]; simp [upToLF, hx]
        have hcur2 : s2.curr = s.curr + 1 := by simp [s2, c1]
        obtain ⟨J', s', h1, h3, h4, h5, h6⟩ := ih (old := old) (line := line ++ [x]) (s := s2) (by omega) (by omega)
          ⟨by have := p1.sized; unfold Sized at this ⊢; rw [hlen2]; exact this, ⟨J, by simp [s2]⟩, by rw [hlen2]; exact p1.fit⟩ (by simpa [s2] using n1) (by simpa [s2] using n2)
        rw [List.length_append, List.length_singleton] at h1
        refine ⟨J', s', ?_, ?_, h4, ?_, ?_⟩
        · rw [h1, hcur2, hup]; simp; omega
        · rw [h3, hcur2, hup]; simp
        · rw [h5, hcur2, hup]; simp; omega
        · rw [h6]; exact f1
    · simp only [hc, if_false]
      have hd : d.drop s.curr = [] := List.drop_eq_nil_of_le (by omega)
      rw [hd]
      have hlen : line.length < s.mem.length := by have := hp.sized; unfold Sized at this; omega
      have hm : ∃ J, s.mem.set line.length NUL = stored line old J := by
        obtain ⟨J, hJ⟩ := hp.mem
        unfold stored
        cases ho : old.drop line.length with
        | nil =>
          rw [ho] at hJ
          cases J with
          | nil => rw [hJ] at hlen; simp at hlen <;> omega
          | cons z J =>
            refine ⟨J, ?_⟩
            rw [hJ, show old.drop (line.length + 1) = [] by rw [← List.drop_drop, ho]; rfl]
            exact set_append_right
        | cons z r =>
          rw [ho] at hJ
          refine ⟨J, ?_⟩
          rw [hJ, show old.drop (line.length + 1) = r by rw [← List.drop_drop, ho]; rfl]
          exact set_append_right
      obtain ⟨J, hJ⟩ := hm
      refine ⟨J, { s with mem := s.mem.set line.length NUL }, ?_, ?_, ?_, ?_, rfl⟩
      · rw [M.bind_of_ok (wr_ok hlen)]; simp [upToLF]
      · simpa [upToLF] using hJ
      · have := hp.sized; unfold Sized at this ⊢; simpa using this
      · simp [upToLF]

theorem drop_succ_cons {old : Bytes} {k : Nat} {z : Byte} {r : Bytes} (h : old.drop k = z :: r) : old.drop (k + 1) = r := by
  rw [← List.drop_drop, h]; rfl

theorem drop_succ_nil {old : Bytes} {k : Nat} (h : old.drop k = []) : old.drop (k + 1) = [] := by
  rw [← List.drop_drop, h]; rfl

/-- writing the terminator behind `line` -/
theorem set_stored {line old J : Bytes} (h : line.length < (line ++ (old.drop line.length ++ J)).length) :
    ∃ J', (line ++ (old.drop line.length ++ J)).set line.length NUL = stored line old J' := by
  unfold stored
  cases ho : old.drop line.length with
  | nil =>
    rw [ho] at h
    cases J with
    | nil => simp at h
    | cons z J =>
      refine ⟨J, ?_⟩
      rw [drop_succ_nil ho]
      exact set_append_right
  | cons z r =>
    refine ⟨J, ?_⟩
    rw [drop_succ_cons ho]
    exact set_append_right

/-- `get_line_buffer` -/
theorem getLineBuffer_spec {env : Env} {d : Bytes} {s : Io} (hs : s.Sized) :
    if d.drop s.curr = [] then getLineBuffer env (some d) d.length s = .ok none s
    else ∃ J s', getLineBuffer env (some d) d.length s = .ok (some (upToLF (d.drop s.curr)).length) s' ∧
      s'.mem = stored (upToLF (d.drop s.curr)) s.mem J ∧ s'.Sized ∧
      s'.curr = s.curr + (upToLF (d.drop s.curr)).length ∧ s'.fpos = s.fpos := by
  unfold getLineBuffer
  simp only [M.get_bind]
  by_cases hc : s.curr ≥ d.length
  · rw [if_pos (List.drop_eq_nil_of_le hc), if_pos hc]; rfl
  · have hne : d.drop s.curr ≠ [] := by
      intro h; have := List.drop_eq_nil_iff.mp h; omega
    rw [if_neg hne, if_neg hc]
    obtain ⟨J, s1, e1, e2, e3, e4, e5, e6, e7⟩ := reallocIf_spec env (s.mem = [] ∨ s.n < initialSize) initialSize s
      (by rintro (h | h)
          · simp [h]
          · unfold Sized at hs; omega) hs
    have hn : 128 ≤ s1.n := by
      by_cases h : s.mem = [] ∨ s.n < initialSize
      · rw [e6 h]; exact Nat.le_refl _
      · rw [e7 h]; simp [initialSize] at h; exact h.2
    obtain ⟨J', s', h1, h2, h3, h4, h5⟩ := bufLoop_spec (env := env) (d := d) (d.length + 1) (old := s.mem) (line := [])
      (s := s1) (by omega) (by omega) ⟨e3, ⟨J, by simp [e2]⟩, by rw [e2]; simp⟩ (by simp; omega) (by omega)
    refine ⟨J', s', ?_, by simpa [e4] using h2, h3, by simpa [e4] using h4, by simpa [e5] using h5⟩
    rw [M.bind_of_ok e1, M.bind_of_ok (show bufLoop env (some d) d.length (d.length + 1) 0 s1 = _ from h1)]
    simp [e4]

/-- POSIX `getline` -/
theorem getlinePosix_spec {env : Env} {d : Bytes} {s : Io} (hs : s.Sized) :
    if d.drop s.fpos = [] then ∃ J s', getlinePosix env d s = .ok none s' ∧ s'.mem = s.mem ++ J ∧ s'.Sized ∧
      s'.curr = s.curr ∧ s'.fpos = s.fpos
    else ∃ J s', getlinePosix env d s = .ok (some (upToLF (d.drop s.fpos)).length) s' ∧
      s'.mem = stored (upToLF (d.drop s.fpos)) s.mem J ∧ s'.Sized ∧
      s'.curr = s.curr ∧ s'.fpos = s.fpos + (upToLF (d.drop s.fpos)).length := by
  unfold getlinePosix
  simp only [M.get_bind]
  split
  · rename_i h
    rw [if_pos (by rw [h]; rfl)]
    obtain ⟨J, s1, e1, e2, e3, e4, e5, e6, e7⟩ := reallocIf_spec env (s.mem = []) (env.grow s.tick) s
      (by intro h; simp [h]) hs
    exact ⟨J, s1, by rw [M.bind_of_ok e1]; rfl, e2, e3, e4, e5⟩
  · rename_i h
    rw [if_neg (upToLF_ne h)]
    generalize upToLF (d.drop s.fpos) = line
    obtain ⟨J, s1, e1, e2, e3, e4, e5, e6, e7⟩ := reallocIf_spec env (s.mem = [] ∨ s.n < line.length + 1)
      (line.length + 1 + env.grow s.tick) s (by rintro (h | h)
                                                · simp [h]
                                                · unfold Sized at hs; omega) hs
    have hn : line.length + 1 ≤ s1.mem.length := by
      unfold Sized at e3
      by_cases h : s.mem = [] ∨ s.n < line.length + 1
      · have := e6 h; omega
      · have := e7 h; simp only [not_or] at h; omega
    refine ⟨J.drop (line.length + 1 - s.mem.length), { s1 with mem := line ++ NUL :: s1.mem.drop (line.length + 1), fpos := s1.fpos + line.length }, ?_, ?_, ?_, e4, ?_⟩
    · rw [M.bind_of_ok e1]; rfl
    · simp only [stored, e2, List.drop_append]
    · unfold Sized at e3 ⊢
      simp only [List.length_append, List.length_cons, List.length_drop]
      omega
    · simp [e5]

/-! ## The portable reader -/

theorem upToLF_take (d : Bytes) (k : Nat) :
    upToLF (d.take k) = (upToLF d).take k := by
  induction d generalizing k with
  | nil => simp [upToLF]
  | cons x xs ih =>
    cases k with
    | zero => simp [upToLF]
    | succ k =>
      simp only [List.take_succ_cons, upToLF]
      split
      · simp
      · simp [ih]

theorem strlen_line {line T : Bytes} (h : NUL ∉ line) : strlen (line ++ NUL :: T) = some line.length := by
  unfold strlen
  rw [if_pos (by simp)]
  congr 2
  induction line with
  | nil => simp
  | cons x xs ih =>
    simp only [List.mem_cons, not_or] at h
    have : x ≠ NUL := fun h' => h.1 h'.symm
    rw [List.cons_append, List.takeWhile_cons, if_pos (by simp [this]), ih h.2]

/-- a line that ends with LF is complete: `upToLF` of it and anything is itself -/
theorem upToLF_last {a r : Bytes} (h : upToLF (a ++ r) = a) (hr : r ≠ []) : a.getLast? = some LF := by
  induction a with
  | nil => exact absurd h (upToLF_ne (by simpa using hr))
  | cons x xs ih =>
    simp only [List.cons_append, upToLF] at h
    split at h
    · rename_i hx
      simp at h; simp [h, hx]
    · simp only [List.cons.injEq, true_and] at h
      have := ih h
      cases xs with
      | nil => simp at this
      | cons y ys => simpa [List.getLast?_cons_cons] using this

theorem upToLF_mid {t : Bytes} {k : Nat} (hk : k < (upToLF t).length) : LF ∉ (upToLF t).take k := by
  induction t generalizing k with
  | nil => simp [upToLF]
  | cons x xs ih =>
    simp only [upToLF] at hk ⊢
    split
    · rename_i hx
      rw [if_pos hx] at hk
      simp at hk; subst hk; simp
    · rename_i hx
      rw [if_neg hx] at hk
      cases k with
      | zero => simp
      | succ k =>
        simp only [List.take_succ_cons, List.mem_cons, not_or]
        exact ⟨fun h => hx h.symm, ih (by simpa using hk)⟩

theorem fgets_spec {d : Bytes} {s : Io} (h : d.drop s.fpos ≠ []) : fgets d s = .ok (some ((upToLF (d.drop s.fpos)).take 127 ++ [NUL]))
    { s with fpos := s.fpos + ((upToLF (d.drop s.fpos)).take 127).length } := by
  unfold fgets
  simp only [M.get_bind, initialSize, Nat.add_one_sub_one, upToLF_take]
  have : List.take 127 (upToLF (d.drop s.fpos)) ≠ [] := by
    have := upToLF_ne h
    cases hx : upToLF (d.drop s.fpos) with
    | nil => exact absurd hx this
    | cons => simp
  rw [if_neg this]
  rfl

theorem fgets_eof {d : Bytes} {s : Io} (h : d.drop s.fpos = []) : fgets d s = .ok none s := by
  unfold fgets
  simp [h, upToLF]

theorem upToLF_append {a r : Bytes} (h : LF ∉ a) : upToLF (a ++ r) = a ++ upToLF r := by
  induction a with
  | nil => rfl
  | cons x xs ih =>
    simp only [List.mem_cons, not_or] at h
    simp only [List.cons_append, upToLF, ih h.2]
    rw [if_neg (fun h' => h.1 h'.symm)]

theorem chunk_noLF {t : Bytes} {k : Nat} (h : ((upToLF t).take k).getLast? ≠ some LF) : LF ∉ (upToLF t).take k := by
  intro hm
  generalize hu : (upToLF t).take k = u at *
  rcases List.eq_nil_or_concat u with rfl | ⟨l, x, hx⟩
  · simp at hm
  · have hl : l = (upToLF t).take l.length := by
      have h2 : u.take l.length = l := by rw [hx]; simp
      rw [← hu, List.take_take] at h2
      have : l.length ≤ k := by
        have h3 := congrArg List.length hu
        have h4 := congrArg List.length hx
        simp at h3 h4; omega
      rw [Nat.min_eq_left this] at h2
      exact h2.symm
    have hlt : l.length < (upToLF t).length := by
      have h3 := congrArg List.length hu
      have h4 := congrArg List.length hx
      simp at h3 h4; omega
    have := upToLF_mid hlt
    rw [← hl] at this
    rw [hx] at hm h
    simp at hm h
    rcases hm with hm | hm
    · exact this hm
    · exact h hm.symm

theorem fgetsLoop_spec {env : Env} {d old : Bytes} (hd : NUL ∉ d) (f : Nat) :
    ∀ {line J : Bytes} {s : Io}, (d.drop s.fpos).length < f → s.mem = stored line old J → s.Sized → NUL ∉ line →
    128 ≤ s.n →
    if d.drop s.fpos = [] then
      fgetsLoop env d f line.length s = .ok (if line.length ≠ 0 then some line.length else none) s
    else ∃ J' s', fgetsLoop env d f line.length s = .ok (some (line.length + (upToLF (d.drop s.fpos)).length)) s' ∧
      s'.mem = stored (line ++ upToLF (d.drop s.fpos)) old J' ∧ s'.Sized ∧ s'.curr = s.curr ∧
      s'.fpos = s.fpos + (upToLF (d.drop s.fpos)).length := by
  induction f with
  | zero => intro line J s h; omega
  | succ f ih =>
    intro line J s hf hm hs hl hn
    unfold fgetsLoop
    split
    · rename_i h
      rw [M.bind_of_ok (fgets_eof h)]
      rfl
    · rename_i h
      rw [M.bind_of_ok (fgets_spec h)]
      generalize ht : d.drop s.fpos = t at *
      have htn : NUL ∉ upToLF t := fun h' => hd (List.mem_of_mem_drop (ht ▸ mem_upToLF h'))
      have hcn : NUL ∉ (upToLF t).take 127 := fun h' => htn (List.mem_of_mem_take h')
      have hc0 : (upToLF t).take 127 ≠ [] := by
        have := upToLF_ne h
        cases hx : upToLF t with
        | nil => exact absurd hx this
        | cons => simp
      have hc127 : ((upToLF t).take 127).length ≤ 127 := by simp; omega
      have hpre : t = (upToLF t).take 127 ++ t.drop ((upToLF t).take 127).length := by
        obtain ⟨r, hr⟩ : ∃ r, t = (upToLF t).take 127 ++ r :=
          ⟨(upToLF t).drop 127 ++ t.drop (upToLF t).length, by
            rw [← List.append_assoc, List.take_append_drop]; exact upToLF_split t⟩
        generalize (upToLF t).take 127 = u at *
        subst hr
        simp
      have hnolf := @chunk_noLF t 127
      have hwhole : ((upToLF t).take 127).getLast? = some LF → (upToLF t).take 127 = upToLF t := by
        intro hlast
        apply List.take_of_length_le
        apply Nat.le_of_not_lt
        intro hlt
        exact upToLF_mid hlt (List.mem_of_getLast? hlast)
      generalize hch : (upToLF t).take 127 = chunk at *
      have hcl := List.length_pos_iff.mpr hc0
      simp only
      have hsl : strlenLine { s with fpos := s.fpos + chunk.length } = .ok line.length { s with fpos := s.fpos + chunk.length } := by
        unfold strlenLine
        simp only [hm, stored, strlen_line hl]
      rw [M.bind_of_ok hsl, show chunk ++ [NUL] = chunk ++ NUL :: [] from rfl, strlen_line hcn]
      simp only [M.get_bind]
      have hlen : line.length + 1 ≤ s.n := by
        unfold Sized at hs; rw [hs, hm]; simp [stored]
      obtain ⟨J1, s1, e1, e2, e3, e4, e5, e6, e7⟩ := reallocIf_spec env (s.n ≤ chunk.length + line.length) (s.n * 2)
        { s with fpos := s.fpos + chunk.length } (by intro _; unfold Sized at hs; simp only; omega) hs
      have hn1 : chunk.length + line.length < s1.n ∧ 128 ≤ s1.n := by
        by_cases hg : s.n ≤ chunk.length + line.length
        · rw [e6 hg]; omega
        · rw [e7 hg]; simp only; omega
      have hlen1 : chunk.length + line.length < s1.mem.length := by unfold Sized at e3; omega
      have hmem2 : ∃ J2, s1.mem.take line.length ++ chunk ++ s1.mem.drop (line.length + chunk.length) =
          (line ++ chunk) ++ (old.drop (line ++ chunk).length ++ J2) := by
        refine ⟨(J ++ J1).drop (chunk.length - 1 - (old.length - (line.length + 1))), ?_⟩
        have hA : s1.mem = line ++ (NUL :: (old.drop (line.length + 1) ++ (J ++ J1))) := by
          rw [e2]; simp [hm, stored]
        obtain ⟨k, hk⟩ : ∃ k, chunk.length = k + 1 := ⟨chunk.length - 1, by omega⟩
        rw [hA]
        simp only [List.length_append, hk]
        rw [List.take_left', List.drop_append]
        · simp only [Nat.add_sub_cancel_left, List.drop_succ_cons, List.drop_append, List.drop_drop, List.length_drop]
          rw [List.drop_eq_nil_of_le (show line.length ≤ line.length + (k + 1) by omega)]
          simp [Nat.add_assoc, Nat.add_comm 1 k]
        · rfl
      obtain ⟨J2, hJ2⟩ := hmem2
      let s2 : Io := { s1 with mem := (line ++ chunk) ++ (old.drop (line ++ chunk).length ++ J2) }
      have hcopy : copyTo line.length ((chunk ++ NUL :: []).take chunk.length) s1 = .ok () s2 := by
        rw [List.take_left' rfl]
        unfold copyTo
        rw [if_pos (by omega), hJ2]
      have hlen2 : s2.mem.length = s1.mem.length := by
        have := congrArg List.length hJ2
        simp only [List.length_append, List.length_take, List.length_drop] at this
        simp only [s2, List.length_append, List.length_drop]
        omega
      obtain ⟨J3, hJ3⟩ := set_stored (line := line ++ chunk) (old := old) (J := J2) (by
        have : s2.mem = (line ++ chunk) ++ (old.drop (line ++ chunk).length ++ J2) := rfl
        rw [← this, hlen2]; simp; omega)
      let s3 : Io := { s2 with mem := stored (line ++ chunk) old J3 }
      have hwr : wr (line.length + chunk.length) NUL s2 = .ok () s3 := by
        rw [wr_ok (by rw [hlen2]; omega)]
        have : line.length + chunk.length = (line ++ chunk).length := by simp
        rw [this]
        show Res.ok () { s2 with mem := s2.mem.set _ _ } = _
        rw [show s2.mem.set (line ++ chunk).length NUL = stored (line ++ chunk) old J3 from hJ3]
      have hs3 : s3.Sized := by
        have h3 : s3.mem.length = s2.mem.length := by
          show (stored (line ++ chunk) old J3).length = _
          rw [← hJ3, List.length_set]
        unfold Sized at e3 ⊢
        rw [h3, hlen2]; exact e3
      rw [M.bind_of_ok e1, M.bind_of_ok hcopy, M.bind_of_ok hwr, if_neg (by omega)]
      have hrd : ∃ b, rd (line.length + chunk.length - 1) s3 = .ok b s3 ∧ chunk.getLast? = some b := by
        rcases List.eq_nil_or_concat chunk with h' | ⟨l, b, hb⟩
        · exact absurd h' hc0
        · refine ⟨b, ?_, by rw [hb]; simp⟩
          have : s3.mem[line.length + chunk.length - 1]? = some b := by
            show (stored (line ++ chunk) old J3)[_]? = _
            rw [hb]
            simp only [stored, List.concat_eq_append, List.append_assoc, List.length_append, List.length_singleton]
            rw [List.getElem?_append_right (by omega), List.getElem?_append_right (by omega)]
            simp
          simp [rd, this]
      obtain ⟨b, hb1, hb2⟩ := hrd
      rw [M.bind_of_ok hb1]
      by_cases hbl : b = LF
      · rw [if_pos hbl]
        have hw := hwhole (by rw [hb2, hbl])
        refine ⟨J3, s3, ?_, ?_, hs3, e4, ?_⟩
        · rw [← hw]; rfl
        · rw [← hw]
        · rw [← hw]; exact e5
      · rw [if_neg hbl]
        have hno := hnolf (by rw [hb2]; simpa using hbl)
        have hup : upToLF t = chunk ++ upToLF (t.drop chunk.length) := by
          conv => lhs; rw [hpre]
          exact upToLF_append hno
        have hfp : s3.fpos = s.fpos + chunk.length := e5
        have hdr : d.drop s3.fpos = t.drop chunk.length := by
          rw [hfp, ← List.drop_drop, ht]
        have := ih (line := line ++ chunk) (J := J3) (s := s3) (by
            rw [hdr, List.length_drop]
            have := congrArg List.length hpre
            simp at this; omega) rfl hs3
          (by simp only [List.mem_append, not_or]; exact ⟨hl, hcn⟩) (by exact hn1.2)
        rw [hdr, List.length_append] at this
        split at this
        · rename_i h'
          rw [h'] at hup
          simp only [upToLF, List.append_nil] at hup
          refine ⟨J3, s3, ?_, ?_, hs3, e4, ?_⟩
          · rw [this, if_pos (by omega), hup]
          · rw [hup]
          · rw [hup]; exact hfp
        · obtain ⟨J', s', g1, g2, g3, g4, g5⟩ := this
          refine ⟨J', s', ?_, ?_, g3, g4.trans e4, ?_⟩
          · rw [g1, hup]; simp; omega
          · rw [g2, hup]; simp
          · rw [g5, hfp, hup]; simp; omega

/-- the portable `get_line_file` -/
theorem getlinePortable_spec {env : Env} {d : Bytes} {s : Io} (hd : NUL ∉ d) (hs : s.Sized) :
    if d.drop s.fpos = [] then ∃ J s', getlinePortable env d s = .ok none s' ∧ s'.mem = stored [] s.mem J ∧ s'.Sized ∧
      s'.curr = s.curr ∧ s'.fpos = s.fpos
    else ∃ J s', getlinePortable env d s = .ok (some (upToLF (d.drop s.fpos)).length) s' ∧
      s'.mem = stored (upToLF (d.drop s.fpos)) s.mem J ∧ s'.Sized ∧
      s'.curr = s.curr ∧ s'.fpos = s.fpos + (upToLF (d.drop s.fpos)).length := by
  unfold getlinePortable
  simp only [M.get_bind]
  obtain ⟨J, s1, e1, e2, e3, e4, e5, e6, e7⟩ := reallocIf_spec env (s.mem = [] ∨ s.n < initialSize) initialSize s
    (by rintro (h | h)
        · simp [h]
        · unfold Sized at hs; omega) hs
  have hn : 128 ≤ s1.n := by
    by_cases h : s.mem = [] ∨ s.n < initialSize
    · rw [e6 h]; exact Nat.le_refl _
    · rw [e7 h]; simp [initialSize] at h; exact h.2
  have hlen : 0 < s1.mem.length := by unfold Sized at e3; omega
  obtain ⟨J1, hJ1⟩ := set_stored (line := []) (old := s.mem) (J := J) (by simp; rw [e2] at hlen; simpa using hlen)
  have hwr : wr 0 NUL s1 = .ok () { s1 with mem := stored [] s.mem J1 } := by
    rw [wr_ok hlen]; rw [← hJ1, e2]; simp
  have hs2 : Sized { s1 with mem := stored [] s.mem J1 } := by
    have := congrArg List.length hJ1
    rw [List.length_set] at this
    unfold Sized at e3 ⊢
    rw [← this]
    rw [e2] at e3; simpa using e3
  have := fgetsLoop_spec (env := env) (old := s.mem) hd (d.length + 1) (line := []) (J := J1)
    (s := { s1 with mem := stored [] s.mem J1 }) (by rw [List.length_drop]; omega) rfl hs2 (by simp) hn
  rw [M.bind_of_ok e1, M.bind_of_ok hwr, ← e5]
  simp only [List.length_nil, ne_eq, not_true_eq_false, if_false, Nat.zero_add, List.nil_append] at this
  split
  · rename_i h
    rw [if_pos h] at this
    exact ⟨J1, _, this, rfl, hs2, e4, rfl⟩
  · rename_i h
    rw [if_neg h] at this
    obtain ⟨J', s', g1, g2, g3, g4, g5⟩ := this
    exact ⟨J', s', g1, g2, g3, g4.trans e4, g5⟩

/-! ## All readers -/

/-- the bytes not yet read -/
def Src.unread (src : Src) (curr fpos : Nat) : Bytes :=
  match src with
  | .file _ d => d.drop fpos
  | .buf p _ => (p.getD []).drop curr

/-- `curr_char_` after a read at the end of the input -/
def Src.eofCurr (src : Src) (curr : Nat) : Nat :=
  match src with
  | .file _ _ => advance curr none
  | .buf _ _ => curr

theorem getLineFile_eof {env : Env} {unix : Bool} {d : Bytes} {s : Io} (hf : (Src.file unix d).Fine) (hs : s.Sized)
    (h : d.drop s.fpos = []) : ∃ J s', getLineFile unix env d s = .ok none s' ∧
      (s'.mem = s.mem ++ J ∨ s'.mem = stored [] s.mem J) ∧ s'.Sized ∧ s'.curr = s.curr ∧ s'.fpos = s.fpos := by
  cases unix with
  | true =>
    have := getlinePosix_spec (env := env) (d := d) hs
    rw [if_pos h] at this
    obtain ⟨J, s', h1, h2, h3⟩ := this
    exact ⟨J, s', h1, .inl h2, h3⟩
  | false =>
    have := getlinePortable_spec (env := env) (hf rfl) hs
    rw [if_pos h] at this
    obtain ⟨J, s', h1, h2, h3⟩ := this
    exact ⟨J, s', h1, .inr h2, h3⟩

theorem getLineFile_line {env : Env} {unix : Bool} {d : Bytes} {s : Io} (hf : (Src.file unix d).Fine) (hs : s.Sized)
    (h : d.drop s.fpos ≠ []) : ∃ J s', getLineFile unix env d s = .ok (some (upToLF (d.drop s.fpos)).length) s' ∧
      s'.mem = stored (upToLF (d.drop s.fpos)) s.mem J ∧ s'.Sized ∧ s'.curr = s.curr ∧
      s'.fpos = s.fpos + (upToLF (d.drop s.fpos)).length := by
  cases unix with
  | true =>
    have := getlinePosix_spec (env := env) (d := d) hs
    rw [if_neg h] at this
    exact this
  | false =>
    have := getlinePortable_spec (env := env) (hf rfl) hs
    rw [if_neg h] at this
    exact this

theorem getLine_file (env : Env) (unix : Bool) (d : Bytes) : getLine env (.file unix d) =
    (getLineFile unix env d >>= fun r => M.modify (fun s => { s with curr := advance s.curr r }) >>= fun _ => pure r) := rfl

theorem getLine_eof {env : Env} {src : Src} {s : Io} (hf : src.Fine) (hs : s.Sized) (h : src.unread s.curr s.fpos = []) :
    ∃ J s', getLine env src s = .ok none s' ∧ (s'.mem = s.mem ++ J ∨ s'.mem = stored [] s.mem J) ∧ s'.Sized ∧
        s'.curr = src.eofCurr s.curr ∧ src.unread s'.curr s'.fpos = [] := by
  cases src with
  | file unix d =>
    obtain ⟨J, s', h1, h2, h3, h4, h5⟩ := getLineFile_eof (env := env) hf hs h
    refine ⟨J, { s' with curr := advance s'.curr none }, ?_, h2, by unfold Sized at *; exact h3, by show advance s'.curr none = advance s.curr none; rw [h4], ?_⟩
    · rw [getLine_file, M.bind_of_ok h1]
      rfl
    · show d.drop s'.fpos = []
      rw [h5]; exact h
  | buf p n =>
    have hf : n = (p.getD []).length := hf
    cases p with
    | none =>
      refine ⟨[], s, ?_, .inl (by simp), hs, rfl, h⟩
      subst hf
      show getLineBuffer env none 0 s = _
      simp [getLineBuffer]
    | some d =>
      have hf : n = d.length := hf
      subst hf
      have := getLineBuffer_spec (env := env) (d := d) hs
      rw [if_pos (show d.drop s.curr = [] from h)] at this
      exact ⟨[], s, this, .inl (by simp), hs, rfl, h⟩

theorem getLine_line {env : Env} {src : Src} {s : Io} (hf : src.Fine) (hs : s.Sized) (h : src.unread s.curr s.fpos ≠ []) :
    ∃ J s', getLine env src s = .ok (some (upToLF (src.unread s.curr s.fpos)).length) s' ∧
      s'.mem = stored (upToLF (src.unread s.curr s.fpos)) s.mem J ∧ s'.Sized ∧
      s'.curr = s.curr + (upToLF (src.unread s.curr s.fpos)).length ∧
      src.unread s'.curr s'.fpos = (src.unread s.curr s.fpos).drop (upToLF (src.unread s.curr s.fpos)).length := by
  cases src with
  | file unix d =>
    obtain ⟨J, s', h1, h2, h3, h4, h5⟩ := getLineFile_line (env := env) hf hs h
    refine ⟨J, { s' with curr := advance s'.curr (some (upToLF (d.drop s.fpos)).length) }, ?_, h2, by unfold Sized at *; exact h3,
      by simp only [advance_some, h4, Src.unread], ?_⟩
    · rw [getLine_file, M.bind_of_ok h1]
      rfl
    · show d.drop s'.fpos = (d.drop s.fpos).drop (upToLF (d.drop s.fpos)).length
      rw [h5, List.drop_drop]
  | buf p n =>
    have hf : n = (p.getD []).length := hf
    cases p with
    | none => exact absurd (by simp [Src.unread]) h
    | some d =>
    have hf : n = d.length := hf
    subst hf
    have := getLineBuffer_spec (env := env) (d := d) hs
    rw [if_neg (show d.drop s.curr ≠ [] from h)] at this
    obtain ⟨J, s', h1, h2, h3, h4, h5⟩ := this
    refine ⟨J, s', h1, h2, h3, h4, ?_⟩
    show d.drop s'.curr = (d.drop s.curr).drop (upToLF (d.drop s.curr)).length
    rw [h4, List.drop_drop]

end Ssp
