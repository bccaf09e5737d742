import Verif.Proofs.ParserJoin
/-!
# The rows of an input, with multiline
-/
namespace Ssp
open Spec

variable {x : Ctx}

/-! ### exactly one kind of row -/

theorem Ctx.row_cases (x : Ctx) (n : Nat) : (∃ k, x.RowTo n k) ∨ (∃ k, x.RowTooLong n k) ∨ x.RowOpen n := by
  by_cases ho : x.RowOpen n
  · exact .inr (.inr ho)
  · have : ∃ k, n + k < (lines x.src.data).length ∧ ¬ (x.GoesOn (x.joined n k) ∧ ¬ x.cfg.Limit k) := by
      unfold Ctx.RowOpen at ho
      false_or_by_contra
      rename_i hc
      exact ho fun k hk => Classical.byContradiction fun hg => hc ⟨k, hk, hg⟩
    obtain ⟨k, hk⟩ := this
    clear ho
    induction k using Nat.strongRecOn with
    | ind k ih =>
      by_cases hb : ∃ i, i < k ∧ ¬ (x.GoesOn (x.joined n i) ∧ ¬ x.cfg.Limit i)
      · obtain ⟨i, h1, h2⟩ := hb
        exact ih i h1 ⟨by omega, h2⟩
      · have hbef : ∀ i, i < k → x.GoesOn (x.joined n i) ∧ ¬ x.cfg.Limit i :=
          fun i hi => Classical.byContradiction fun hg => hb ⟨i, hi, hg⟩
        by_cases hg : x.GoesOn (x.joined n k)
        · exact .inr (.inl ⟨k, hk.1, hg, Classical.byContradiction fun hl => hk.2 ⟨hg, hl⟩, hbef⟩)
        · exact .inl ⟨k, hk.1, hg, hbef⟩

/-! ### where rows start -/

theorem Ctx.Starts.inside {n m : Nat} (h : x.Starts n m) : m < (lines x.src.data).length := by
  obtain ⟨l, hl, _⟩ := h.row
  false_or_by_contra
  rw [List.getElem?_eq_none (by omega)] at hl
  cases hl

theorem Ctx.Starts.unique {n m m' : Nat} (h : x.Starts n m) (h' : x.Starts n m') : m = m' := by
  have key : ∀ {m m'}, x.Starts n m → x.Starts n m' → ¬ m < m' := by
    intro m m' h h' hlt
    obtain ⟨l, h1, h2⟩ := h.row
    obtain ⟨h3, h4⟩ := h'.skipped m h.le hlt
    rw [h4] at h1
    cases h1
    exact h2 h3 rfl
  have h1 := key h h'
  have h2 := key h' h
  omega

theorem rest_succ {n : Nat} (h : n < (lines x.src.data).length) :
    x.rest n = (if x.cfg.ignoreEmpty = true ∧ (lines x.src.data)[n] = [] then [] else [(lines x.src.data)[n]]) ++ x.rest (n + 1) := by
  unfold Ctx.rest
  rw [List.drop_eq_getElem_cons h, List.filter_cons]
  by_cases h1 : x.cfg.ignoreEmpty = true <;> by_cases h2 : (lines x.src.data)[n] = [] <;> simp [h1, h2]

theorem rest_none {n : Nat} (h : (lines x.src.data).length ≤ n) : x.rest n = [] := by
  unfold Ctx.rest
  rw [List.drop_eq_nil_of_le h]; rfl

theorem rest_starts {n m : Nat} (h : x.Starts n m) : ∃ l, (lines x.src.data)[m]? = some l ∧ x.rest n = l :: x.rest (m + 1) := by
  obtain ⟨l, h1, h2⟩ := h.row
  have hm := h.inside
  refine ⟨l, h1, ?_⟩
  rw [List.getElem?_eq_getElem hm] at h1
  cases h1
  obtain ⟨j, rfl⟩ := Nat.exists_eq_add_of_le h.le
  clear h2
  have hsk := h.skipped
  induction j generalizing n with
  | zero =>
    obtain ⟨l, h1, h2⟩ := h.row
    rw [List.getElem?_eq_getElem hm] at h1
    cases h1
    rw [rest_succ (by simpa using hm), if_neg (by intro hc; exact h2 hc.1 (by simpa using hc.2))]
    rfl
  | succ j ih =>
    obtain ⟨h3, h4⟩ := hsk n (Nat.le_refl _) (by omega)
    have hn : n < (lines x.src.data).length := by omega
    rw [List.getElem?_eq_getElem hn] at h4
    rw [rest_succ hn, if_pos ⟨h3, by simpa using h4⟩]
    have e : n + 1 + j = n + (j + 1) := by omega
    have := ih (n := n + 1) (by rw [e]; exact ⟨by omega, h.row, fun i h1 h2 => h.skipped i (by omega) h2⟩) (by rw [e]; exact hm)
      (by rw [e]; intro i h1 h2; exact h.skipped i (by omega) h2)
    simp only [e] at this
    simpa using this

theorem starts_of_rest {n : Nat} (h : x.rest n ≠ []) : ∃ m, x.Starts n m := by
  have key : ∀ d n, (lines x.src.data).length - n = d → x.rest n ≠ [] → ∃ m, x.Starts n m := by
    intro d
    induction d with
    | zero => intro n hd h; exact absurd (rest_none (by omega)) h
    | succ d ih =>
      intro n hd h
      have hn : n < (lines x.src.data).length := by omega
      rw [rest_succ hn] at h
      by_cases hc : x.cfg.ignoreEmpty = true ∧ (lines x.src.data)[n] = []
      · rw [if_pos hc] at h
        obtain ⟨m, hm⟩ := ih (n + 1) (by omega) (by simpa using h)
        have hle := hm.le
        refine ⟨m, by omega, hm.row, ?_⟩
        intro i h1 h2
        by_cases hi : i = n
        · subst hi
          exact ⟨hc.1, by rw [List.getElem?_eq_getElem hn, hc.2]⟩
        · exact hm.skipped i (by omega) h2
      · exact ⟨n, Nat.le_refl _, ⟨_, List.getElem?_eq_getElem hn, fun h1 h2 => hc ⟨h1, h2⟩⟩, by intro i h1 h2; omega⟩
  exact key _ n rfl h

theorem not_starts {n : Nat} (h : x.rest n = []) (m : Nat) : ¬ x.Starts n m := by
  intro hs
  obtain ⟨l, _, h1⟩ := rest_starts hs
  rw [h] at h1; cases h1

/-- the lines before a row with the same rest were skipped -/
theorem starts_same {a b m : Nat} (hab : a ≤ b) (hr : x.rest a = x.rest b) (h : x.Starts b m) : x.Starts a m := by
  obtain ⟨j, rfl⟩ := Nat.exists_eq_add_of_le hab
  clear hab
  induction j generalizing a with
  | zero => exact h
  | succ j ih =>
    have hn : a < (lines x.src.data).length := by have := h.inside; have := h.le; omega
    have hmono : ∀ i, (x.rest (a + 1 + i)).length ≤ (x.rest (a + 1)).length := by
      intro i
      unfold Ctx.rest
      rw [← List.drop_drop]
      exact ((List.drop_sublist i _).filter _).length_le
    have hlen := hmono j
    have e : a + (j + 1) = a + 1 + j := by omega
    rw [← e, ← hr, rest_succ hn] at hlen
    by_cases hc : x.cfg.ignoreEmpty = true ∧ (lines x.src.data)[a] = []
    · rw [rest_succ hn, if_pos hc] at hr
      have := ih (a := a + 1) (by rw [← e]; simpa using hr) (by rw [← e]; exact h)
      have hle := this.le
      refine ⟨by omega, this.row, ?_⟩
      intro i h1 h2
      by_cases hi : i = a
      · subst hi
        exact ⟨hc.1, by rw [List.getElem?_eq_getElem hn, hc.2]⟩
      · exact this.skipped i (by omega) h2
    · rw [if_neg hc] at hlen
      simp at hlen
      omega

/-- every input has rows -/
theorem mlRows_exist (x : Ctx) (n : Nat) : ∃ L, x.MlRows n L := by
  have key : ∀ d n, (lines x.src.data).length - n ≤ d → ∃ L, x.MlRows n L := by
    intro d
    induction d with
    | zero => intro n hd; exact ⟨[], .done fun m h => by have := h.inside; have := h.le; omega⟩
    | succ d ih =>
      intro n hd
      by_cases hs : ∃ m, x.Starts n m
      · obtain ⟨m, hm⟩ := hs
        have hlt := hm.inside
        have hle := hm.le
        rcases x.row_cases m with ⟨k, hk⟩ | ⟨k, hk⟩ | hk
        · obtain ⟨L, hL⟩ := ih (m + k + 1) (by omega)
          exact ⟨_, .text hm hk hL⟩
        · obtain ⟨L, hL⟩ := ih (m + k + 1) (by omega)
          exact ⟨_, .tooLong hm hk hL⟩
        · exact ⟨_, .unfinished hm hk⟩
      · exact ⟨[], .done fun m h => hs ⟨m, h⟩⟩
  exact key _ n (Nat.le_refl _)

theorem mlRows_unique {n : Nat} {L L' : List MlRow} (h : x.MlRows n L) (h' : x.MlRows n L') : L = L' := by
  induction h generalizing L' with
  | done hn =>
    cases h' with
    | done => rfl
    | text h1 => exact absurd h1 (hn _)
    | tooLong h1 => exact absurd h1 (hn _)
    | unfinished h1 => exact absurd h1 (hn _)
  | text hs hr _ ih =>
    cases h' with
    | done hn => exact absurd hs (hn _)
    | text h1 h2 h3 =>
      cases hs.unique h1
      cases hr.unique h2
      rw [ih h3]
    | tooLong h1 h2 => cases hs.unique h1; exact (hr.not_tooLong h2).elim
    | unfinished h1 h2 => cases hs.unique h1; exact (hr.not_open h2).elim
  | tooLong hs hr _ ih =>
    cases h' with
    | done hn => exact absurd hs (hn _)
    | text h1 h2 => cases hs.unique h1; exact (h2.not_tooLong hr).elim
    | tooLong h1 h2 h3 =>
      cases hs.unique h1
      cases hr.unique h2
      rw [ih h3]
    | unfinished h1 h2 => cases hs.unique h1; exact (hr.not_open h2).elim
  | unfinished hs hr =>
    cases h' with
    | done hn => exact absurd hs (hn _)
    | text h1 h2 => cases hs.unique h1; exact (h2.not_open hr).elim
    | tooLong h1 h2 => cases hs.unique h1; exact (h2.not_open hr).elim
    | unfinished => rfl

theorem mlRows_same {a b : Nat} (hab : a ≤ b) (hr : x.rest a = x.rest b) {L : List MlRow} (h : x.MlRows a L) : x.MlRows b L := by
  have hs : ∀ {m}, x.Starts a m → x.Starts b m := by
    intro m hm
    have : x.rest b ≠ [] := by
      obtain ⟨l, _, h1⟩ := rest_starts hm
      rw [← hr, h1]; simp
    obtain ⟨m', hm'⟩ := starts_of_rest this
    cases hm.unique (starts_same hab hr hm')
    exact hm'
  cases h with
  | done hn => exact .done fun m hm => hn m (starts_same hab hr hm)
  | text h1 h2 h3 => exact .text (hs h1) h2 h3
  | tooLong h1 h2 h3 => exact .tooLong (hs h1) h2 h3
  | unfinished h1 h2 => exact .unfinished (hs h1) h2

/-- a parser with rows left stands at the line of a row -/
theorem starts_here (hx : x.LiveFor fun n e op => op.Tame x n e) {s : Parser} (h : Parser.ReachT x s) (hr : x.rest s.line ≠ []) :
    x.Starts s.line s.line := by
  obtain ⟨t, hp, hi, _⟩ := h.sim hx
  obtain ⟨l, ls, hls⟩ := List.exists_cons_of_ne_nil hr
  rw [hp.line] at hls ⊢
  obtain ⟨_, hh, _, _⟩ := hi.rest_here hls
  refine ⟨Nat.le_refl _, ⟨t.rd.look, ?_, hh.full⟩, by intro i h1 h2; omega⟩
  have := hh.look
  rw [Mach.line_eq, lines, List.getElem?_map]
  exact this

end Ssp
