import Verif.Proofs.Cost
/-! # The counted splitter takes a number of steps linear in the line -/
namespace Ssp
namespace Spl

theorem within_rd {p : Nat} {s : Spl} {b : Nat} {Q : Byte → Spl → Nat → Prop} (hb : 1 ≤ b)
    (h : ∀ x, s.mem[p]? = some x → Q x s (b - 1)) : Within (rdK p s) b Q := by
  refine within_of hb fun x t hx => ?_
  unfold rd at hx
  cases hm : s.mem[p]? with
  | none => rw [hm] at hx; cases hx
  | some y => rw [hm] at hx; cases hx; exact h _ hm

/-- the string terminator is at `e` -/
def NulAt (e : Nat) (s : Spl) : Prop := s.mem[e]? = some NUL

theorem within_skip {set : List Byte} (h0 : NUL ∉ set) {e : Nat} {s : Spl} (hs : NulAt e s) : ∀ (f p b : Nat), p ≤ e → e - p + 1 ≤ b →
    Within (skipWhileK set f p s) b fun p' t b' => t = s ∧ p ≤ p' ∧ p' ≤ e ∧ b ≤ b' + (p' - p) + 1 ∧
      ∀ i, p ≤ i → i < p' → ∃ x ∈ set, s.mem[i]? = some x := by
  intro f
  induction f with
  | zero => intro p b _ _; exact within_nofuel
  | succ f ih =>
    intro p b hp hb
    unfold skipWhileK
    refine Within.bind (within_rd (by omega) fun x hx => ?_)
    by_cases hm : x ∈ set
    · rw [if_pos hm]
      have hne : p ≠ e := by
        intro h; subst h
        rw [hs] at hx
        cases hx
        exact h0 hm
      refine (ih (p + 1) (b - 1) (by omega) (by omega)).mono ?_
      rintro p' t b' ⟨h1, h2, h3, h4, h5⟩
      refine ⟨h1, by omega, h3, by omega, ?_⟩
      intro i hi hi'
      by_cases hip : i = p
      · subst hip; exact ⟨x, hm, hx⟩
      · exact h5 i (by omega) hi'
    · rw [if_neg hm]
      exact within_pure ⟨rfl, Nat.le_refl _, hp, by omega, fun i h1 h2 => by omega⟩

theorem within_trim {set : List Byte} (h0 : NUL ∉ set) {e : Nat} {s : Spl} (hs : NulAt e s) {p b : Nat} (hp : p ≤ e) (hb : e - p + 1 ≤ b) :
    Within (trimIfEnabledK set p s) b fun p' t b' => t = s ∧ p ≤ p' ∧ p' ≤ e ∧ b ≤ b' + (p' - p) + 1 ∧
      ∀ i, p ≤ i → i < p' → ∃ x ∈ set, s.mem[i]? = some x := by
  unfold trimIfEnabledK
  split
  · exact within_pure ⟨rfl, Nat.le_refl _, hp, by omega, fun i h1 h2 => by omega⟩
  · exact within_skip h0 hs _ p b hp hb

theorem within_strncmp {e : Nat} {s : Spl} (hs : NulAt e s) : ∀ (d : Bytes) (p b : Nat), NUL ∉ d → p ≤ e → d.length ≤ b →
    Within (strncmpEqK p d s) b fun r t b' => t = s ∧ b ≤ b' + d.length ∧ (r = true → p + d.length ≤ e) := by
  intro d
  induction d with
  | nil => intro p b _ hp _; exact within_pure ⟨rfl, by simp, fun _ => by simpa using hp⟩
  | cons d ds ih =>
    intro p b hn hp hb
    rw [List.length_cons] at hb
    unfold strncmpEqK
    refine Within.bind (within_rd (by omega) fun x hx => ?_)
    by_cases hxd : x ≠ d
    · rw [if_pos hxd]; exact within_pure ⟨rfl, by simp; omega, fun h => by cases h⟩
    · have hxd : x = d := Decidable.byContradiction hxd
      rw [if_neg (fun h => h hxd)]
      have hxn : x ≠ NUL := fun h => hn (by rw [← h, hxd]; exact List.mem_cons_self)
      rw [if_neg hxn]
      have hne : p ≠ e := by
        intro h; subst h; rw [hs] at hx; cases hx; exact hxn rfl
      refine (ih (p + 1) (b - 1) (fun h => hn (List.mem_cons_of_mem _ h)) (by omega) (by omega)).mono ?_
      rintro r t b' ⟨h1, h2, h3⟩
      rw [List.length_cons]
      exact ⟨h1, by omega, fun h => by have := h3 h; omega⟩

theorem within_matchDelim {e : Nat} {s : Spl} (hs : NulAt e s) {d : Delim} {p b : Nat} (hd : NUL ∉ d.bytes)
    (hp : p ≤ e) (hb : d.bytes.length ≤ b) :
    Within (matchDelimK p d s) b fun r t b' => t = s ∧ b ≤ b' + d.bytes.length ∧ (r = true → p + d.bytes.length ≤ e) := by
  cases d with
  | str d => exact within_strncmp hs d p b hd hp hb
  | chr d =>
    unfold matchDelimK
    refine Within.bind (within_rd hb fun x hx => within_pure ⟨rfl, ?_, ?_⟩)
    · simp only [Delim.bytes, List.length_cons, List.length_nil] at hb ⊢; omega
    · intro h
      have hxd : x = d := by simpa using h
      have hne : p ≠ e := by
        intro h; subst h; rw [hs] at hx; cases hx; exact hd (by rw [← hxd]; exact List.mem_cons_self)
      simp only [Delim.bytes, List.length_cons, List.length_nil]; omega

/-- bytes read but not yet moved to their place -/
def gap (s : Spl) : Nat := s.end_ - s.curr - s.escaped

/-- what moving bytes leaves alone -/
structure Moved (s t : Spl) : Prop where
  mem : ∀ i, s.end_ ≤ i → t.mem[i]? = s.mem[i]?
  begin_ : t.begin_ = s.begin_
  resplitting : t.resplitting = s.resplitting

theorem within_shift {s : Spl} {b : Nat} (hb : gap s ≤ b) :
    Within (shiftAndSetCurrentK s) b fun _ t b' => Moved s t ∧ t.end_ = s.end_ ∧ t.escaped = s.escaped ∧ gap t = 0 ∧ b ≤ b' + gap s := by
  unfold gap at hb ⊢
  refine within_of (by split <;> omega) fun a t ht => ?_
  unfold shiftAndSetCurrent at ht
  by_cases he : s.escaped > 0
  · rw [if_pos he] at ht
    dsimp only at ht
    by_cases hg : s.curr + s.escaped + (s.end_ - s.curr - s.escaped) ≤ s.mem.length ∧ s.escaped ≤ s.end_
    · rw [if_pos hg] at ht
      cases ht
      refine ⟨⟨?_, rfl, rfl⟩, rfl, rfl, by dsimp only; omega, by rw [if_pos he]; omega⟩
      intro i hi
      dsimp only
      have hl : (s.mem.take s.curr ++ (s.mem.drop (s.curr + s.escaped)).take (s.end_ - s.curr - s.escaped)).length
          = s.curr + (s.end_ - s.curr - s.escaped) := by
        simp only [List.length_append, List.length_take, List.length_drop]; omega
      by_cases hlt : s.curr + (s.end_ - s.curr - s.escaped) ≤ i
      · rw [List.getElem?_append_right (by rw [hl]; exact hlt), hl, List.getElem?_drop]
        congr 1
        omega
      · have hn : s.end_ - s.curr - s.escaped = 0 := by omega
        rw [hn]
        simp
    · rw [if_neg hg] at ht; cases ht
  · rw [if_neg he] at ht
    cases ht
    exact ⟨⟨fun _ _ => rfl, rfl, rfl⟩, rfl, rfl, by dsimp only; omega, by rw [if_neg he]; omega⟩

theorem within_jump {c : Cfg} {s : Spl} {b : Nat} (hb : gap s ≤ b) :
    Within (shiftAndJumpEscapeK c s) b fun _ t b' => Moved s t ∧ t.end_ = s.end_ + 1 ∧ gap t ≤ 1 ∧ b ≤ b' + gap s := by
  unfold shiftAndJumpEscapeK
  refine Within.bind ((within_shift hb).mono ?_)
  rintro _ t b' ⟨h1, h2, h3, h4, h5⟩
  refine within_modify ⟨⟨h1.mem, h1.begin_, h1.resplitting⟩, by simp [h2], ?_, h5⟩
  unfold gap at h4 ⊢
  dsimp only
  split <;> omega

/-- `handle_error_*` changes the error only -/
theorem handleError_ok {c : Cfg} {m : Bytes} {s t : Spl} {a : Unit} (h : handleError c m s = .ok a t) : ∃ e, t = { s with err := e } := by
  unfold handleError at h
  cases hm : c.mode with
  | throw => rw [hm] at h; cases h
  | string => rw [hm] at h; cases h; exact ⟨_, rfl⟩
  | bool => rw [hm] at h; cases h; exact ⟨_, rfl⟩

theorem handleIf_ok {c : Cfg} {p : Bool} {m : Bytes} {g : Spl → Spl} {s t : Spl} {a : Unit}
    (h : (do if p then handleError c m
             M.modify g : M Spl Unit) s = .ok a t) : ∃ e, t = g { s with err := e } := by
  cases p with
  | false => cases h; exact ⟨s.err, rfl⟩
  | true =>
    simp only [if_true] at h
    rw [M.bind_apply] at h
    cases hx : handleError c m s with
    | ok a' u =>
      rw [hx] at h
      obtain ⟨e, rfl⟩ := handleError_ok hx
      cases h
      exact ⟨e, rfl⟩
    | exc _ _ => rw [hx] at h; cases h
    | ub => rw [hx] at h; cases h
    | nofuel => rw [hx] at h; cases h

theorem Moved.refl (s : Spl) : Moved s s := ⟨fun _ _ => rfl, rfl, rfl⟩

theorem within_shiftIfEscaped {c : Cfg} {e : Nat} {s : Spl} (hs : NulAt e s) {p b : Nat} (hp : p < e) (hb : gap s + 2 ≤ b) :
    Within (shiftIfEscapedK c p s) b fun _ t b' => Moved s t ∧
      (t.end_ = s.end_ ∨ t.end_ = s.end_ + 1 ∧ p + 1 < e) ∧ b + gap t ≤ b' + gap s + 3 := by
  unfold shiftIfEscapedK
  by_cases hc : c.escape = []
  · rw [if_pos hc]
    exact within_pure ⟨.refl s, .inl rfl, by omega⟩
  · rw [if_neg hc]
    refine Within.bind (within_rd (by omega) fun x hx => ?_)
    by_cases hm : x ∈ c.escape
    · rw [if_pos hm]
      refine Within.bind (within_rd (by omega) fun y hy => ?_)
      by_cases hn : y = NUL
      · rw [if_pos hn]
        refine within_of (Nat.zero_le _) fun a t ht => ?_
        obtain ⟨er, rfl⟩ := handleIf_ok ht
        exact ⟨⟨fun _ _ => rfl, rfl, rfl⟩, .inl rfl, by simp only [gap]; omega⟩
      · rw [if_neg hn]
        refine (within_jump (by omega)).mono ?_
        rintro _ t b' ⟨h1, h2, h3, h4⟩
        refine ⟨h1, .inr ⟨h2, ?_⟩, by omega⟩
        have : p + 1 ≠ e := fun h => by subst h; rw [hs] at hy; cases hy; exact hn rfl
        omega
    · rw [if_neg hm]
      exact within_pure ⟨.refl s, .inl rfl, by omega⟩

/-- what `match_delimiter` at `p` costs and finds out -/
def Matched (c : Cfg) (D e p b : Nat) (s : Spl) (r : Nat × Bool) (t : Spl) (b' : Nat) : Prop :=
  if r.2 then t = s ∧ 1 ≤ r.1 ∧ p + r.1 ≤ e ∧ b ≤ b' + r.1 + D + 3
  else if r.1 = 0 then t = s ∧ b ≤ b' + (e - p) + 2 ∧ ∃ x, s.mem[p]? = some x ∧ (x = NUL ∨ x ∈ c.trimR)
  else p + r.1 ≤ e ∧ Moved s t ∧ (t.end_ = s.end_ ∨ t.end_ = s.end_ + 1 ∧ p + r.1 < e) ∧
    b + gap t ≤ b' + gap s + r.1 + D + 5 ∧ ∀ i, p ≤ i → i < p + r.1 - 1 → ∃ x ∈ c.trimR, s.mem[i]? = some x

theorem within_matchDelimiter {c : Cfg} (hc : c.WF) {d : Delim} (hd : NUL ∉ d.bytes) (hd1 : 1 ≤ d.bytes.length)
    {e : Nat} {s : Spl} (hs : NulAt e s) {p b : Nat} (hp : p ≤ e) (hb : gap s + (e - p) + d.bytes.length + 7 ≤ b) :
    Within (matchDelimiterK c d p s) b (Matched c d.bytes.length e p b s) := by
  unfold matchDelimiterK
  refine Within.bind ((within_trim hc.nul_r hs hp (by omega)).mono ?_)
  rintro e1 t b1 ⟨rfl, h1, h2, h3, h4⟩
  refine Within.bind (within_rd (by omega) fun x hx => ?_)
  by_cases hn : x = NUL
  · rw [if_pos hn]
    refine within_pure ?_
    unfold Matched
    simp only [Bool.false_eq_true, if_false, if_true]
    refine ⟨trivial, by omega, ?_⟩
    by_cases hpe : p = e1
    · subst hpe; exact ⟨x, hx, .inl hn⟩
    · obtain ⟨y, hy, hy'⟩ := h4 p (Nat.le_refl _) (by omega)
      exact ⟨y, hy', .inr hy⟩
  · rw [if_neg hn]
    have hlt : e1 < e := by
      have : e1 ≠ e := fun h => by subst h; rw [hs] at hx; cases hx; exact hn rfl
      omega
    refine Within.bind ((within_matchDelim hs hd h2 (by omega)).mono ?_)
    rintro m t b2 ⟨rfl, h5, h6⟩
    cases m with
    | false =>
      simp only [Bool.not_false, if_true]
      refine Within.bind ((within_shiftIfEscaped hs hlt (by omega)).mono ?_)
      rintro _ u b3 ⟨h7, h8, h9⟩
      refine within_pure ?_
      unfold Matched
      simp only [Bool.false_eq_true, if_false]
      rw [if_neg (show ¬ 1 + e1 - p = 0 by omega)]
      refine ⟨by omega, h7, ?_, by omega, fun i hi hi' => h4 i hi (by omega)⟩
      rcases h8 with h8 | h8
      · exact .inl h8
      · exact .inr ⟨h8.1, by omega⟩
    | true =>
      simp only [Bool.not_true, Bool.false_eq_true, if_false]
      have h6 := h6 rfl
      rw [delimSize_eq]
      refine Within.bind ((within_trim hc.nul_l hs (p := e1 + d.bytes.length) h6 (by omega)).mono ?_)
      rintro e2 u b3 ⟨rfl, h7, h8, h9, _⟩
      refine within_pure ?_
      unfold Matched
      simp only [if_true]
      exact ⟨trivial, by omega, by omega, by omega⟩

/-- the budget for `x` bytes of a line -/
def pot (D x : Nat) : Nat := (D + 12) * x

theorem pot_add (D x y : Nat) : pot D (x + y) = pot D x + pot D y := Nat.mul_add _ _ _

theorem pot_le (D : Nat) {x : Nat} (h : 1 ≤ x) : D + 12 * x ≤ pot D x := by
  unfold pot
  rw [Nat.add_mul]
  have : D * 1 ≤ D * x := Nat.mul_le_mul_left D h
  omega

theorem pot_split (D : Nat) {x y w : Nat} (h : x = y + w) : pot D x = pot D y + pot D w := by rw [h, pot_add]

theorem Moved.nulAt {e : Nat} {s t : Spl} (h : Moved s t) (hs : NulAt e s) (he : s.end_ ≤ e) : NulAt e t := by
  unfold NulAt at *; rw [h.mem e he, hs]

theorem within_push {s : Spl} {b : Nat} (hb : gap s + 1 ≤ b) :
    Within (shiftAndPushK s) b fun _ t b' => Moved s t ∧ t.end_ = s.end_ ∧ b ≤ b' + gap s + 1 := by
  unfold shiftAndPushK
  refine Within.bind ((within_shift (by omega)).mono ?_)
  rintro _ t b' ⟨h1, h2, _, _, h5⟩
  refine within_of (by omega) fun a u hu => ?_
  cases hu
  exact ⟨⟨h1.mem, h1.begin_, h1.resplitting⟩, h2, by omega⟩

theorem within_pushNext {n : Nat} {s : Spl} {b : Nat} (hb : gap s + 1 ≤ b) :
    Within (shiftPushAndStartNextK n s) b fun _ t b' => (∀ i, s.end_ ≤ i → t.mem[i]? = s.mem[i]?) ∧ t.begin_ = s.end_ + n ∧ b ≤ b' + gap s + 1 ∧ t.resplitting = s.resplitting := by
  unfold shiftPushAndStartNextK
  refine Within.bind ((within_push hb).mono ?_)
  rintro _ t b' ⟨h1, h2, h3⟩
  exact within_modify ⟨h1.mem, by simp [h2], h3, h1.resplitting⟩

/-- a field that begins at `s.end_` was read: either it was the last one, or the next one begins further on -/
def FieldRead (D e b : Nat) (s t : Spl) (b' : Nat) : Prop :=
  t.done = true ∨ (t.resplitting = s.resplitting ∧ NulAt e t ∧ s.end_ < t.begin_ ∧ t.begin_ ≤ e ∧ b ≤ b' + pot D (t.begin_ - s.end_) + gap s)

section
variable {c : Cfg} (hc : c.WF) {d : Delim} (hd : NUL ∉ d.bytes) (hd1 : 1 ≤ d.bytes.length) {e : Nat}
include hc hd hd1

theorem within_readNormal : ∀ (f : Nat) (s : Spl) (b : Nat), NulAt e s → s.end_ ≤ e →
    pot d.bytes.length (e - s.end_) + gap s + d.bytes.length + 9 ≤ b →
    Within (readNormalK c d f s) b fun _ t b' => FieldRead d.bytes.length e b s t b' := by
  intro f
  induction f with
  | zero => intro s b _ _ _; exact within_nofuel
  | succ f ih =>
    intro s b hs he hb
    unfold readNormalK
    refine Within.bind (within_get ?_)
    have hge : e - s.end_ ≤ pot d.bytes.length (e - s.end_) := by
      by_cases h : 1 ≤ e - s.end_
      · have := pot_le d.bytes.length h; omega
      · omega
    refine Within.bind ((within_matchDelimiter hc hd hd1 hs he (by omega)).mono ?_)
    rintro ⟨w, v⟩ t b1 hm
    unfold Matched at hm
    cases v with
    | true =>
      simp only [if_true] at hm
      obtain ⟨rfl, h1, h2, h3⟩ := hm
      simp only [Bool.not_true, Bool.false_eq_true, if_false]
      have hp := pot_split d.bytes.length (x := e - t.end_) (y := e - t.end_ - w) (w := w) (by omega)
      have hw := pot_le d.bytes.length h1
      refine (within_pushNext (by omega)).mono ?_
      rintro _ u b2 ⟨h4, h5, h6, h10⟩
      refine .inr ⟨h10, ?_, by omega, by omega, ?_⟩
      · unfold NulAt; rw [h4 e he, hs]
      · rw [show u.begin_ - t.end_ = w by omega]; omega
    | false =>
      simp only [Bool.false_eq_true, if_false] at hm
      simp only [Bool.not_false, if_true]
      by_cases hw0 : w = 0
      · rw [if_pos hw0] at hm ⊢
        obtain ⟨rfl, h1, _⟩ := hm
        refine Within.bind ((within_push ?_).mono fun _ u b2 _ => within_modify (.inl rfl))
        by_cases h : 1 ≤ e - t.end_
        · have := pot_le d.bytes.length h; omega
        · omega
      · rw [if_neg hw0] at hm ⊢
        obtain ⟨h1, h2, h3, h4, _⟩ := hm
        refine Within.bind (within_modify ?_)
        have hend : t.end_ + w ≤ e := by rcases h3 with h3 | h3 <;> omega
        have hlt : s.end_ + w ≤ t.end_ + w := by rcases h3 with h3 | h3 <;> omega
        have hg : gap { t with end_ := t.end_ + w } ≤ gap t + w := by unfold gap; dsimp only; omega
        have hp := pot_split d.bytes.length (x := e - s.end_) (y := e - (t.end_ + w)) (w := t.end_ + w - s.end_) (by omega)
        have hw := pot_le d.bytes.length (x := t.end_ + w - s.end_) (by omega)
        refine (ih { t with end_ := t.end_ + w } b1 (h2.nulAt hs he) hend (by dsimp only; omega)).mono ?_
        rintro _ u b2 (h5 | ⟨h10, h5, h6, h7, h8⟩)
        · exact .inl h5
        · dsimp only at h6 h8
          refine .inr ⟨h10.trans h2.resplitting, h5, by omega, h7, ?_⟩
          have hp2 := pot_split d.bytes.length (x := u.begin_ - s.end_) (y := u.begin_ - (t.end_ + w)) (w := t.end_ + w - s.end_) (by omega)
          omega

theorem within_readQuoted {q : Byte} (hq : c.quote = some q) : ∀ (f : Nat) (s : Spl) (b : Nat), NulAt e s → s.end_ ≤ e →
    pot d.bytes.length (e - s.end_) + gap s + d.bytes.length + 9 ≤ b →
    Within (readQuotedK c q d f s) b fun _ t b' => FieldRead d.bytes.length e b s t b' := by
  have hq0 : q ≠ NUL := fun h => hc.nul_q (by rw [hq, h])
  intro f
  induction f with
  | zero => intro s b _ _ _; exact within_nofuel
  | succ f ih =>
    intro s b hs he hb
    have next : ∀ (t : Spl) (b1 : Nat), NulAt e t → t.resplitting = s.resplitting → s.end_ ≤ t.end_ → t.end_ + 1 ≤ e →
        b + gap t ≤ b1 + gap s + d.bytes.length + 10 →
        Within ((do K.free (M.modify fun s => { s with end_ := s.end_ + 1 })
                    readQuotedK c q d f : K Spl Unit) t) b1 fun _ t b' => FieldRead d.bytes.length e b s t b' := by
      intro t b1 h2 hr h3 h4 h5
      refine Within.bind (within_modify ?_)
      have hg : gap { t with end_ := t.end_ + 1 } ≤ gap t + 1 := by unfold gap; dsimp only; omega
      have hp := pot_split d.bytes.length (x := e - s.end_) (y := e - (t.end_ + 1)) (w := t.end_ + 1 - s.end_) (by omega)
      have hw := pot_le d.bytes.length (x := t.end_ + 1 - s.end_) (by omega)
      refine (ih { t with end_ := t.end_ + 1 } b1 h2 h4 (by dsimp only; omega)).mono ?_
      rintro _ u b2 (h5 | ⟨h10, h5, h6, h7, h8⟩)
      · exact .inl h5
      · dsimp only at h6 h8
        refine .inr ⟨h10.trans hr, h5, by omega, h7, ?_⟩
        have hp2 := pot_split d.bytes.length (x := u.begin_ - s.end_) (y := u.begin_ - (t.end_ + 1)) (w := t.end_ + 1 - s.end_) (by omega)
        omega
    unfold readQuotedK
    refine Within.bind (within_get ?_)
    refine Within.bind (within_rd (by omega) fun x hx => ?_)
    have hne : x ≠ NUL → s.end_ < e := by
      intro hn
      have : s.end_ ≠ e := fun h => by rw [h, hs] at hx; cases hx; exact hn rfl
      omega
    by_cases hxq : x ≠ q
    · rw [if_pos hxq]
      by_cases hes : c.escape ≠ [] ∧ x ∈ c.escape
      · rw [if_pos hes]
        have hlt := hne (fun h => hc.nul_e (h ▸ hes.2))
        refine Within.bind (within_rd (by omega) fun y hy => ?_)
        by_cases hn : y = NUL
        · rw [if_pos hn]
          refine within_of (Nat.zero_le _) fun a t ht => ?_
          obtain ⟨er, rfl⟩ := handleIf_ok ht
          exact .inl rfl
        · rw [if_neg hn]
          have hlt2 : s.end_ + 1 ≠ e := fun h => by rw [h, hs] at hy; cases hy; exact hn rfl
          refine Within.bind ((within_jump (by omega)).mono ?_)
          rintro _ t b1 ⟨h1, h2, h3, h4⟩
          exact next t b1 (h1.nulAt hs he) h1.resplitting (by omega) (by omega) (by omega)
      · rw [if_neg hes]
        by_cases hn : x = NUL
        · rw [if_pos hn]
          refine Within.bind ((within_shift (by omega)).mono ?_)
          rintro _ t b1 ⟨h1, h2, h3, h4, h5⟩
          refine within_of (by omega) fun a u hu => ?_
          simp only [M.modify_bind] at hu
          obtain ⟨er, rfl⟩ := handleIf_ok (p := !c.multiline) (m := msgUnterminatedQuote) hu
          exact .inl rfl
        · rw [if_neg hn]
          exact next s (b - 1) hs rfl (Nat.le_refl _) (hne hn) (by omega)
    · have hxq : x = q := Decidable.byContradiction hxq
      rw [if_neg (fun h => h hxq)]
      have hlt := hne (hxq ▸ hq0)
      have hpe := pot_le d.bytes.length (x := e - s.end_) (by omega)
      refine Within.bind ((within_matchDelimiter hc hd hd1 hs (p := s.end_ + 1) (by omega) (by omega)).mono ?_)
      rintro ⟨w, v⟩ t b1 hm
      unfold Matched at hm
      cases v with
      | true =>
        simp only [if_true] at hm ⊢
        obtain ⟨rfl, h1, h2, h3⟩ := hm
        have hp := pot_split d.bytes.length (x := e - t.end_) (y := e - t.end_ - (w + 1)) (w := w + 1) (by omega)
        have hw := pot_le d.bytes.length (x := w + 1) (by omega)
        refine (within_pushNext (by omega)).mono ?_
        rintro _ u b2 ⟨h4, h5, h6, h10⟩
        refine .inr ⟨h10, ?_, by omega, by omega, ?_⟩
        · unfold NulAt; rw [h4 e he, hs]
        · rw [show u.begin_ - t.end_ = w + 1 by omega]; omega
      | false =>
        simp only [Bool.false_eq_true, if_false] at hm ⊢
        refine Within.bind (within_get ?_)
        by_cases hw0 : w = 0
        · rw [if_pos hw0] at hm
          obtain ⟨rfl, h1, y, hy, hy'⟩ := hm
          refine Within.bind (within_rd (by omega) fun z hz => ?_)
          have hzq : z ≠ q := by
            rw [hz] at hy; cases hy
            rcases hy' with h | h
            · rw [h]; exact fun h => hq0 h.symm
            · exact fun h' => hc.qr q hq (h' ▸ h)
          rw [if_neg hzq, if_pos hw0]
          exact Within.bind ((within_push (by omega)).mono fun _ u b2 _ => within_modify (.inl rfl))
        · rw [if_neg hw0] at hm
          obtain ⟨h1, h2, h3, h4, h5⟩ := hm
          have hend : t.end_ ≤ s.end_ + 1 ∧ s.end_ ≤ t.end_ := by rcases h3 with h3 | h3 <;> omega
          refine Within.bind (within_rd (by omega) fun z hz => ?_)
          rw [h2.mem _ (by omega)] at hz
          by_cases hzq : z = q
          · rw [if_pos hzq]
            have hw2 : w ≤ 2 := by
              refine Decidable.byContradiction fun hw => ?_
              obtain ⟨y, hy, hy'⟩ := h5 (t.end_ + 1) (by omega) (by omega)
              rw [hz] at hy'; cases hy'
              exact hc.qr q hq (hzq ▸ hy)
            refine Within.bind ((within_jump (by omega)).mono ?_)
            rintro _ u b2 ⟨h6, h7, h8, h9⟩
            refine next u b2 (h6.nulAt (h2.nulAt hs he) (by omega)) (h6.resplitting.trans h2.resplitting) (by omega) ?_ (by omega)
            · rcases h3 with h3 | h3 <;> omega
          · rw [if_neg hzq, if_neg hw0]
            refine Within.bind (within_of (by omega) fun a u hu => within_modify (.inl rfl))

theorem within_read {s : Spl} {b : Nat} (hr : s.resplitting = false) (hs : NulAt e s) (he : s.begin_ ≤ e)
    (hb : pot d.bytes.length (e - s.begin_) + d.bytes.length + 10 ≤ b) :
    Within (readK c d s) b fun _ t b' => t.done = true ∨ (t.resplitting = false ∧ NulAt e t ∧ s.begin_ < t.begin_ ∧ t.begin_ ≤ e ∧
      b ≤ b' + pot d.bytes.length (t.begin_ - s.begin_) + 1) := by
  have normal : ∀ b1, b ≤ b1 + 1 →
      Within ((do K.free (M.modify fun s => { s with end_ := s.begin_, curr := s.begin_ })
                  readNormalK c d (s.mem.length + 1) : K Spl Unit) { s with escaped := 0 }) b1 fun _ t b' =>
        t.done = true ∨ (t.resplitting = false ∧ NulAt e t ∧ s.begin_ < t.begin_ ∧ t.begin_ ≤ e ∧
      b ≤ b' + pot d.bytes.length (t.begin_ - s.begin_) + 1) := by
    intro b1 hb1
    refine Within.bind (within_modify ?_)
    have hg : gap { s with escaped := 0, end_ := s.begin_, curr := s.begin_ } = 0 := by unfold gap; dsimp only; omega
    refine (within_readNormal hc hd hd1 _ { s with escaped := 0, end_ := s.begin_, curr := s.begin_ } b1 hs he (by dsimp only; omega)).mono ?_
    rintro _ u b2 (h5 | ⟨h10, h5, h6, h7, h8⟩)
    · exact .inl h5
    · dsimp only at h6 h8 h10
      exact .inr ⟨h10.trans hr, h5, h6, h7, by omega⟩
  unfold readK
  refine Within.bind (within_modify ?_)
  refine Within.bind (within_get ?_)
  cases hq : c.quote with
  | none => exact normal b (by omega)
  | some q =>
    dsimp only
    rw [if_neg (by simp [hr])]
    refine Within.bind (within_rd (by omega) fun x hx => ?_)
    by_cases hxq : x = q
    · rw [if_pos hxq]
      refine Within.bind (within_modify ?_)
      have hlt : s.begin_ < e := by
        have : s.begin_ ≠ e := fun h => by
          dsimp only at hx
          rw [h, hs] at hx; cases hx; exact hc.nul_q (by rw [hq, hxq])
        omega
      have hp := pot_split d.bytes.length (x := e - s.begin_) (y := e - (s.begin_ + 1)) (w := 1) (by omega)
      have hw := pot_le d.bytes.length (x := 1) (by omega)
      have hg : gap { s with escaped := 0, begin_ := s.begin_ + 1, end_ := s.begin_ + 1, curr := s.begin_ + 1 } = 0 := by
        unfold gap; dsimp only; omega
      refine (within_readQuoted hc hd hd1 hq _ { s with escaped := 0, begin_ := s.begin_ + 1, end_ := s.begin_ + 1, curr := s.begin_ + 1 }
        (b - 1) hs hlt (by dsimp only; omega)).mono ?_
      rintro _ u b2 (h5 | ⟨h10, h5, h6, h7, h8⟩)
      · exact .inl h5
      · dsimp only at h6 h8 h10
        have hp := pot_split d.bytes.length (x := u.begin_ - s.begin_) (y := u.begin_ - (s.begin_ + 1)) (w := 1) (by omega)
        exact .inr ⟨h10.trans hr, h5, by omega, h7, by omega⟩
    · rw [if_neg hxq]
      exact normal (b - 1) (by omega)

theorem within_readLoop : ∀ (f : Nat) (s : Spl) (b : Nat), s.done = true ∨ (s.resplitting = false ∧ NulAt e s ∧ s.begin_ ≤ e ∧
    pot (d.bytes.length + 1) (e - s.begin_) + d.bytes.length + 10 ≤ b) →
    Within (readLoopK c d f s) b fun _ _ _ => True := by
  intro f
  induction f with
  | zero => intro s b _; exact within_nofuel
  | succ f ih =>
    intro s b h
    unfold readLoopK
    refine Within.bind (within_get ?_)
    by_cases hd0 : s.done = true
    · rw [if_pos hd0]; exact within_pure trivial
    · rw [if_neg hd0]
      obtain ⟨hr, hs, he, hb⟩ := h.resolve_left hd0
      have hpp : ∀ x, pot (d.bytes.length + 1) x = pot d.bytes.length x + x := by
        intro x; unfold pot; rw [show d.bytes.length + 1 + 12 = d.bytes.length + 12 + 1 by omega, Nat.add_mul]; omega
      have h1 := hpp (e - s.begin_)
      refine Within.bind ((within_read hc hd hd1 hr hs he (by omega)).mono ?_)
      rintro _ t b1 (h | ⟨h2, h3, h4, h5, h6⟩)
      · exact ih t b1 (.inl h)
      · refine ih t b1 (.inr ⟨h2, h3, h5, ?_⟩)
        have h7 := hpp (t.begin_ - s.begin_)
        have hp := pot_split (d.bytes.length + 1) (x := e - s.begin_) (y := e - t.begin_) (w := t.begin_ - s.begin_) (by omega)
        omega

theorem within_splitImpl {s : Spl} {b : Nat} (hr : s.resplitting = false) (hs : NulAt e s) (he : s.begin_ ≤ e)
    (hb : pot (d.bytes.length + 1) (e - s.begin_) + d.bytes.length + 11 ≤ b) :
    Within (splitImplK c d s) b fun _ _ _ => True := by
  unfold splitImplK
  refine Within.bind (within_get ?_)
  have hge : ∀ x, x ≤ pot (d.bytes.length + 1) x := by
    intro x
    by_cases h : 1 ≤ x
    · have := pot_le (d.bytes.length + 1) h; omega
    · omega
  have h0 := hge (e - s.begin_)
  refine Within.bind ((within_trim hc.nul_l hs he (by omega)).mono ?_)
  rintro p t b1 ⟨rfl, h1, h2, h3, _⟩
  refine Within.bind (within_modify ?_)
  refine within_readLoop hc hd hd1 _ _ b1 (.inr ⟨hr, hs, h2, ?_⟩)
  dsimp only
  have hp := pot_split (d.bytes.length + 1) (x := e - t.begin_) (y := e - p) (w := p - t.begin_) (by omega)
  have h4 := hge (p - t.begin_)
  omega

/-- resuming in a quoted field: `s.end_` is where the reading goes on -/
theorem within_resplitImpl {q x : Byte} (hq : c.quote = some q) (hml : c.multiline = true) {s : Spl} {b : Nat} (hr : s.resplitting = true)
    (hs : NulAt e s) (he : s.end_ ≤ e) (hcur : s.curr = s.end_) (hx : s.mem[s.begin_]? = some x) (hxl : x ∉ c.trimL)
    (hb : pot (d.bytes.length + 1) (e - s.end_) + d.bytes.length + 12 ≤ b) :
    Within (splitImplK c d s) b fun _ _ _ => True := by
  have htrim : Within (trimIfEnabledK c.trimL s.begin_ s) b fun p t b' => t = s ∧ p = s.begin_ ∧ b ≤ b' + 1 := by
    unfold trimIfEnabledK
    split
    · exact within_pure ⟨rfl, rfl, by omega⟩
    · unfold skipWhileK
      refine Within.bind (within_rd (by omega) fun y hy => ?_)
      rw [hx] at hy; cases hy
      rw [if_neg hxl]
      exact within_pure ⟨rfl, rfl, by omega⟩
  unfold splitImplK
  refine Within.bind (within_get ?_)
  refine Within.bind (htrim.mono ?_)
  rintro p t b1 ⟨rfl, rfl, h1⟩
  refine Within.bind (within_modify ?_)
  unfold readLoopK
  refine Within.bind (within_get ?_)
  rw [if_neg (by simp)]
  have hpp : ∀ x, pot (d.bytes.length + 1) x = pot d.bytes.length x + x := by
    intro x; unfold pot; rw [show d.bytes.length + 1 + 12 = d.bytes.length + 12 + 1 by omega, Nat.add_mul]; omega
  have h2 := hpp (e - t.end_)
  unfold readK
  refine Within.bind (Within.bind (within_modify (Within.bind (within_get ?_))))
  rw [hq]
  dsimp only
  rw [if_pos (by simp [hml, hr])]
  refine Within.bind (within_modify ?_)
  have hg : gap { t with done := false, escaped := 0, resplitting := false, begin_ := t.begin_ + 1 } = 0 := by
    unfold gap; dsimp only; omega
  refine (within_readQuoted hc hd hd1 hq _ { t with done := false, escaped := 0, resplitting := false, begin_ := t.begin_ + 1 }
    b1 hs he (by dsimp only; omega)).mono ?_
  rintro _ u b2 (h5 | ⟨h10, h5, h6, h7, h8⟩)
  · exact within_readLoop (e := e) hc hd hd1 _ _ b2 (.inl h5)
  · dsimp only at h6 h8 h10
    refine within_readLoop hc hd hd1 _ _ b2 (.inr ⟨h10, h5, h7, ?_⟩)
    have h7 := hpp (u.begin_ - t.end_)
    have hp := pot_split (d.bytes.length + 1) (x := e - t.end_) (y := e - u.begin_) (w := u.begin_ - t.end_) (by omega)
    omega

end

theorem within_select {c : Cfg} (hc : c.WF) {delim : Bytes} (hd : NUL ∉ delim) {e : Nat} {s : Spl} {b : Nat} (hr : s.resplitting = false)
    (hs : NulAt e s) (he : s.begin_ ≤ e) (hb : pot (delim.length + 1) (e - s.begin_) + delim.length + 11 ≤ b) :
    Within (splitImplSelectDelimK c delim s) b fun _ _ _ => True := by
  unfold splitImplSelectDelimK
  refine Within.bind (within_modify ?_)
  match delim, hd, hb with
  | [], _, _ => exact within_of (Nat.zero_le _) fun _ _ _ => trivial
  | [x], hd, hb => exact within_splitImpl hc (d := .chr x) hd (by simp [Delim.bytes]) hr hs he hb
  | x :: y :: z, hd, hb => exact within_splitImpl hc (d := .str (x :: y :: z)) hd (by simp [Delim.bytes]) hr hs he hb

theorem within_reselect {c : Cfg} (hc : c.WF) {delim : Bytes} (hd : NUL ∉ delim) {e : Nat} {q x : Byte} (hq : c.quote = some q)
    (hml : c.multiline = true) {s : Spl} {b : Nat} (hr : s.resplitting = true)
    (hs : NulAt e s) (he : s.end_ ≤ e) (hcur : s.curr = s.end_) (hx : s.mem[s.begin_]? = some x) (hxl : x ∉ c.trimL)
    (hb : pot (delim.length + 1) (e - s.end_) + delim.length + 12 ≤ b) :
    Within (splitImplSelectDelimK c delim s) b fun _ _ _ => True := by
  unfold splitImplSelectDelimK
  refine Within.bind (within_modify ?_)
  match delim, hd, hb with
  | [], _, _ => exact within_of (Nat.zero_le _) fun _ _ _ => trivial
  | [y], hd, hb => exact within_resplitImpl hc (d := .chr y) hd (by simp [Delim.bytes]) hq hml hr hs he hcur hx hxl hb
  | y :: z :: w, hd, hb => exact within_resplitImpl hc (d := .str (y :: z :: w)) hd (by simp [Delim.bytes]) hq hml hr hs he hcur hx hxl hb

end Spl
end Ssp
