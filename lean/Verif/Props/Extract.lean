import Verif.Proofs.Number
/-!
# Properties of value conversion: C13 - C18

`conv t s` is what converting a column with the text `s` to the type `t` stores (`none`: the conversion
fails).  `extract_is_conv` ties it to the model of `ss::extract` on a range of a memory block.
-/
namespace Ssp

/-- `ss::extract` on a column in memory succeeds iff `conv` of its text does, and then stores that value: the
bytes around the column have no influence. -/
theorem C13_extract_is_conv {mem : Bytes} {b e : Nat} (h1 : b ≤ e) (h2 : e < mem.length) (t : Ty) :
    ∃ r, extract mem b e t t.dflt = some r ∧
      ((r.1 = true ∧ conv t (textAt mem b e) = some r.2) ∨ (r.1 = false ∧ conv t (textAt mem b e) = none)) :=
  extract_conv h1 h2 t

/-- C13: a column converts to an integer type iff its whole text is a decimal literal (a minus sign only for
signed types) with a representable value, and then yields that value. -/
theorem C13_integer_exact (t : IntTy) (s : Bytes) (v : Val) :
    conv (.int t) s = some v ↔ ∃ n, v = .int n ∧ Literal t.signed s n ∧ t.Represents n := by
  unfold conv
  simp only [extract, textAt_self, Ty.dflt]
  cases h : toNum t s with
  | none =>
    simp only [reduceCtorEq, false_iff, not_exists, not_and]
    intro n _ hl hr
    have := (toNum_iff t s n).mpr ⟨hl, hr⟩
    rw [h] at this; cases this
  | some n =>
    simp only [Option.some.injEq]
    have h' := (toNum_iff t s n).mp h
    constructor
    · rintro rfl; exact ⟨n, rfl, h'⟩
    · rintro ⟨m, rfl, hl, hr⟩
      have := (toNum_iff t s m).mpr ⟨hl, hr⟩
      rw [h] at this; cases this; rfl

/-- C13: the empty text, a plus sign, spaces, trailing characters, a lone minus are all rejected: every accepted
text consists of an optional minus sign and digits only. -/
theorem C13_integer_shape {t : IntTy} {s : Bytes} {v : Val} (h : conv (.int t) s = some v) :
    ∃ ds, ds ≠ [] ∧ (∀ b ∈ ds, isDigit b = true) ∧ (s = ds ∨ (t.signed = true ∧ s = 45 :: ds)) := by
  obtain ⟨n, _, hl, _⟩ := (C13_integer_exact t s v).mp h
  cases hl with
  | nat hd => exact ⟨_, hd.sound.1, hd.sound.2.1, .inl rfl⟩
  | neg hs hd => exact ⟨_, hd.sound.1, hd.sound.2.1, .inr ⟨hs, rfl⟩⟩

/-- C14: the decimal text of every value of every integer type converts back to the value. -/
theorem C14_integer_roundtrip (t : IntTy) (n : Int) (h : t.Represents n) :
    conv (.int t) (decimal n) = some (.int n) := by
  refine (C13_integer_exact t _ _).mpr ⟨n, rfl, decimal_literal _ _ ?_, h⟩
  unfold IntTy.Represents at h
  cases hs : t.signed with
  | true => exact .inl rfl
  | false => rw [hs] at h; exact .inr h.1

/-- the integer types of C++ on the usual platforms -/
def i8 : IntTy := ⟨true, 8⟩
def u8 : IntTy := ⟨false, 8⟩
def i32 : IntTy := ⟨true, 32⟩
def u32 : IntTy := ⟨false, 32⟩
def i64 : IntTy := ⟨true, 64⟩
def u64 : IntTy := ⟨false, 64⟩

example : i8.Represents (-128) ∧ ¬ i8.Represents 128 ∧ u64.Represents 18446744073709551615 := by
  unfold IntTy.Represents i8 u64; decide
example : decimal (-9223372036854775808) = bs "-9223372036854775808" := by decide +kernel
example : conv (.int i64) (bs "-9223372036854775808") = some (.int (-9223372036854775808)) := by decide +kernel
example : conv (.int i32) (bs "2147483648") = none ∧ conv (.int u8) (bs "-1") = none ∧
    conv (.int i32) (bs "+1") = none ∧ conv (.int i32) (bs "007") = some (.int 7) := by decide +kernel

/-! ## C15 -/

/-- C15 (bool) -/
theorem C15_bool_exact (s : Bytes) (v : Val) :
    conv .bool s = some v ↔ (v = .bool true ∧ (s = bs "1" ∨ s = bs "true")) ∨
      (v = .bool false ∧ (s = bs "0" ∨ s = bs "false")) := by
  have h1 : bs "1" = [49] := by decide
  have h0 : bs "0" = [48] := by decide
  unfold conv
  simp only [extract, textAt_self, extractBool, Ty.dflt]
  constructor
  · intro h
    by_cases hl : s.length = 1
    · simp only [hl, if_true] at h
      obtain ⟨x, rfl⟩ := List.length_eq_one_iff.mp hl
      simp only [List.head?_cons, Option.some.injEq] at h
      by_cases hx : x = 49
      · subst hx; simp only [if_true, Option.some.injEq] at h; exact .inl ⟨h.symm, .inl h1.symm⟩
      · by_cases hx' : x = 48
        · subst hx'; simp at h; exact .inr ⟨h.symm, .inl h0.symm⟩
        · simp [hx, hx'] at h
    · simp only [hl, if_false] at h
      by_cases ht : s.length = 4 ∧ s = bs "true"
      · rw [if_pos ht] at h
        exact .inl ⟨(Option.some.inj h).symm, .inr ht.2⟩
      · by_cases hf : s.length = 5 ∧ s = bs "false"
        · rw [if_neg ht, if_pos hf] at h
          exact .inr ⟨(Option.some.inj h).symm, .inr hf.2⟩
        · simp [ht, hf] at h
  · rintro (⟨rfl, rfl | rfl⟩ | ⟨rfl, rfl | rfl⟩) <;> decide

/-- C15 (char): exactly the one-byte columns. -/
theorem C15_char_exact (s : Bytes) (v : Val) : conv .char s = some v ↔ ∃ x, s = [x] ∧ v = .char x := by
  unfold conv
  simp only [extract]
  cases s with
  | nil => simp
  | cons x s =>
    cases s with
    | nil => simp [eq_comm]
    | cons y s => simp

/-- C15 (std::string): every column, unchanged. -/
theorem C15_string_exact (s : Bytes) : conv .str s = some (.str s) := by
  simp [conv, extract, textAt_self]

/-- C15 (std::string_view): every column, unchanged. -/
theorem C15_view_exact (s : Bytes) : conv .view s = some (.view s) := by
  simp [conv, extract, textAt_self]

example : conv .bool (bs "true") = some (.bool true) ∧ conv .bool (bs "True") = none ∧ conv .char (bs "") = none := by
  decide +kernel

/-! ## C16, C17 -/

/-- C16: std::optional never fails. -/
theorem C16_optional_total (t : Ty) (s : Bytes) :
    conv (.opt t) s = some (match conv t s with | some v => .engaged v | none => .nullopt) := by
  obtain ⟨⟨r1, r2⟩, hr⟩ := conv_total t s
  unfold conv
  simp only [extract, hr]
  cases r1 <;> rfl

theorem variant_find (s : Bytes) : ∀ (ts : List Ty) (i : Nat) (dst : Val),
    (∃ j w, ∃ hj : j < ts.length, extractVariant (s ++ [NUL]) 0 s.length ts i dst = some (true, .alt (i + j) w) ∧
      conv ts[j] s = some w ∧ ∀ k, ∀ hk : k < j, conv (ts[k]'(by omega)) s = none) ∨
    (extractVariant (s ++ [NUL]) 0 s.length ts i dst = some (false, dst) ∧ ∀ t ∈ ts, conv t s = none)
  | [], i, dst => .inr ⟨rfl, by simp⟩
  | t :: ts, i, dst => by
    obtain ⟨⟨r1, r2⟩, hr⟩ := conv_total t s
    simp only [extractVariant, hr]
    cases r1 with
    | true =>
      refine .inl ⟨0, r2, by simp, rfl, ?_, by intro k hk; omega⟩
      simp [conv, hr]
    | false =>
      have hn : conv t s = none := by simp [conv, hr]
      rcases variant_find s ts (i + 1) dst with ⟨j, w, hj, h1, h2, h3⟩ | ⟨h1, h2⟩
      · refine .inl ⟨j + 1, w, by simp; omega, ?_, by simpa using h2, ?_⟩
        · show extractVariant _ _ _ ts (i + 1) dst = _
          rw [h1]; congr 3; omega
        · intro k hk
          cases k with
          | zero => simpa using hn
          | succ k => simpa using h3 k (by omega)
      · refine .inr ⟨h1, ?_⟩
        intro x hx
        rcases List.mem_cons.mp hx with rfl | hx
        · exact hn
        · exact h2 x hx

/-- C17: a variant holds the value of the first alternative that converts ... -/
theorem C17_variant_first (ts : List Ty) (s : Bytes) (v : Val) :
    conv (.variant ts) s = some v ↔ ∃ i w, ∃ hi : i < ts.length, v = .alt i w ∧ conv ts[i] s = some w ∧
      ∀ k, ∀ hk : k < i, conv (ts[k]'(by omega)) s = none := by
  have hv := variant_find s ts 0 (Ty.variant ts).dflt
  unfold conv
  simp only [extract]
  rcases hv with ⟨j, w, hj, h1, h2, h3⟩ | ⟨h1, h2⟩
  · rw [h1]
    simp only [Option.some.injEq, Nat.zero_add]
    constructor
    · rintro rfl; exact ⟨j, w, hj, rfl, h2, h3⟩
    · rintro ⟨i, w', hi, rfl, e1, e2⟩
      have e1 : conv ts[i] s = some w' := e1
      have e2 : ∀ k, ∀ hk : k < i, conv (ts[k]'(by omega)) s = none := e2
      rcases Nat.lt_trichotomy i j with h | h | h
      · rw [h3 i h] at e1; cases e1
      · subst h; rw [h2] at e1; cases e1; rfl
      · rw [e2 j h] at h2; cases h2
  · rw [h1]
    simp only [reduceCtorEq, false_iff, not_exists, not_and]
    intro i w hi _ hw
    have hw : conv ts[i] s = some w := hw
    rw [h2 _ (List.getElem_mem hi)] at hw; cases hw

/-- C17: ... and the conversion fails iff none does. -/
theorem C17_variant_fails_iff (ts : List Ty) (s : Bytes) :
    conv (.variant ts) s = none ↔ ∀ t ∈ ts, conv t s = none := by
  constructor
  · intro h
    rcases variant_find s ts 0 (Ty.variant ts).dflt with ⟨j, w, hj, h1, h2, h3⟩ | ⟨h1, h2⟩
    · have := (C17_variant_first ts s (.alt j w)).mpr ⟨j, w, hj, rfl, h2, h3⟩
      rw [h] at this; cases this
    · exact h2
  · intro h
    cases hc : conv (.variant ts) s with
    | none => rfl
    | some v =>
      obtain ⟨i, w, hi, _, h2, _⟩ := (C17_variant_first ts s v).mp hc
      rw [h _ (List.getElem_mem hi)] at h2; cases h2

example : conv (.variant [.int i32, .char, .str]) (bs "x") = some (.alt 1 (.char 120)) ∧
    conv (.variant [.int i32, .char]) (bs "xy") = none ∧ conv (.opt (.int i32)) (bs "q") = some .nullopt := by
  decide +kernel

/-! ## C18 -/

/-- The documented meaning of the restrictions, on integers. -/
def Restr.Accepts : Restr → Int → Prop
  | .ax x xs, v => ∀ y ∈ x :: xs, v ≠ y.val
  | .nx x xs, v => ∃ y ∈ x :: xs, v = y.val
  | .gt n, v => n.val < v
  | .gte n, v => n.val ≤ v
  | .lt n, v => v < n.val
  | .lte n, v => v ≤ n.val
  | .ir lo hi, v => lo.val ≤ v ∧ v ≤ hi.val
  | .oor lo hi, v => v < lo.val ∨ hi.val < v

/-- the constants of a restriction -/
def Restr.lits : Restr → List Lit
  | .ax x xs => x :: xs
  | .nx x xs => x :: xs
  | .gt n => [n]
  | .gte n => [n]
  | .lt n => [n]
  | .lte n => [n]
  | .ir lo hi => [lo, hi]
  | .oor lo hi => [lo, hi]

/-- The C++ comparison of `v : t` with the constant is not one in which a negative operand is converted to an
unsigned type. -/
def NoWrap (t : IntTy) (v : Int) (l : Lit) : Prop :=
  t.Represents v ∧ l.ty.Represents l.val ∧ ((t.common l.ty).signed = true ∨ (0 ≤ v ∧ 0 ≤ l.val))

theorem pow_mono {a b : Nat} (h : a ≤ b) : (2 : Int) ^ a ≤ 2 ^ b := by
  have := Nat.pow_le_pow_right (n := 2) (by omega) h
  have h2 : ((2 ^ a : Nat) : Int) ≤ ((2 ^ b : Nat) : Int) := by omega
  simpa using h2

theorem rep_lt {t : IntTy} {v : Int} {B : Nat} (h : t.Represents v) (hb : t.bits ≤ B) : v < (2 : Int) ^ B := by
  unfold IntTy.Represents at h
  split at h
  · have := pow_mono (a := t.bits - 1) (b := B) (by omega); omega
  · have := pow_mono hb; omega

theorem common_unsigned_bits {a b : IntTy} (h : (a.common b).signed = false) :
    a.bits ≤ (a.common b).bits ∧ b.bits ≤ (a.common b).bits := by
  obtain ⟨as, ab⟩ := a
  obtain ⟨bs, bb⟩ := b
  revert h
  by_cases h1 : ab < 32 <;> by_cases h2 : bb < 32 <;> cases as <;> cases bs <;>
    simp [IntTy.common, IntTy.promote, h1, h2]
  all_goals first
    | (split <;> simp <;> omega)
    | omega

theorem convert_eq {t : IntTy} {n : Int} (h : t.signed = true ∨ (0 ≤ n ∧ n < (2 : Int) ^ t.bits)) :
    t.convert n = n := by
  unfold IntTy.convert
  rcases h with h | ⟨h1, h2⟩
  · simp [h]
  · split
    · rfl
    · exact Int.emod_eq_of_lt h1 (by simpa using h2)

theorem nowrap_convert {t : IntTy} {v : Int} {l : Lit} (h : NoWrap t v l) :
    (t.common l.ty).convert v = v ∧ (t.common l.ty).convert l.val = l.val := by
  obtain ⟨h1, h2, h3⟩ := h
  by_cases hs : (t.common l.ty).signed = true
  · exact ⟨convert_eq (.inl hs), convert_eq (.inl hs)⟩
  · rcases h3 with h3 | ⟨h3, h4⟩
    · exact absurd h3 hs
    · obtain ⟨b1, b2⟩ := common_unsigned_bits (Bool.eq_false_iff.mpr hs)
      exact ⟨convert_eq (.inr ⟨h3, rep_lt h1 b1⟩), convert_eq (.inr ⟨h4, rep_lt h2 b2⟩)⟩

theorem cLt_iff {t : IntTy} {v : Int} {l : Lit} (h : NoWrap t v l) : cLt t v l = true ↔ v < l.val := by
  simp [cLt, (nowrap_convert h).1, (nowrap_convert h).2]
theorem cGt_iff {t : IntTy} {v : Int} {l : Lit} (h : NoWrap t v l) : cGt t v l = true ↔ l.val < v := by
  simp [cGt, (nowrap_convert h).1, (nowrap_convert h).2]
theorem cEq_iff {t : IntTy} {v : Int} {l : Lit} (h : NoWrap t v l) : cEq t v l = true ↔ v = l.val := by
  simp [cEq, (nowrap_convert h).1, (nowrap_convert h).2]

theorem ax_iff {t : IntTy} {v : Int} : ∀ {xs : List Lit} {x : Lit}, (∀ l ∈ x :: xs, NoWrap t v l) →
    (axValid t v x xs = true ↔ ∀ y ∈ x :: xs, v ≠ y.val)
  | [], x, h => by
    have := cEq_iff (h x (by simp))
    simp [axValid, ← this]
  | y :: ys, x, h => by
    have h1 := cEq_iff (h x (by simp))
    have h2 := ax_iff (x := y) (xs := ys) (fun l hl => h l (by simp [List.mem_cons.mp hl]))
    simp only [axValid, Bool.and_eq_true, h2, Bool.not_eq_true']
    rw [List.forall_mem_cons (l := y :: ys), ← Bool.not_eq_true, h1]

theorem nx_iff {t : IntTy} {v : Int} : ∀ {xs : List Lit} {x : Lit}, (∀ l ∈ x :: xs, NoWrap t v l) →
    (nxValid t v x xs = true ↔ ∃ y ∈ x :: xs, v = y.val)
  | [], x, h => by
    have := cEq_iff (h x (by simp))
    simp [nxValid, this]
  | y :: ys, x, h => by
    have h1 := cEq_iff (h x (by simp))
    have h2 := nx_iff (x := y) (xs := ys) (fun l hl => h l (by simp [List.mem_cons.mp hl]))
    simp only [nxValid, Bool.or_eq_true, h2, h1]
    simp only [List.mem_cons, exists_eq_or_imp]

/-- C18: every restriction, with constant packs of any length, accepts exactly its documented set.

Partial: `NoWrap` excludes comparisons in which C++ converts a negative number to an unsigned type; there the
code accepts and rejects other values, see `C18_mixed_sign_wraps`. -/
theorem C18_restriction_exact_partial (t : IntTy) (v : Int) (r : Restr) (h : ∀ l ∈ r.lits, NoWrap t v l) :
    r.valid t v = true ↔ r.Accepts v := by
  cases r with
  | ax x xs => exact ax_iff h
  | nx x xs => exact nx_iff h
  | gt n => exact cGt_iff (h n (by simp [Restr.lits]))
  | gte n =>
    have h := h n (by simp [Restr.lits])
    simp only [Restr.valid, Restr.Accepts, Bool.or_eq_true, cGt_iff h, cEq_iff h]; omega
  | lt n => exact cLt_iff (h n (by simp [Restr.lits]))
  | lte n =>
    have h := h n (by simp [Restr.lits])
    simp only [Restr.valid, Restr.Accepts, Bool.or_eq_true, cLt_iff h, cEq_iff h]; omega
  | ir lo hi =>
    have h1 := h lo (by simp [Restr.lits])
    have h2 := h hi (by simp [Restr.lits])
    simp only [Restr.valid, Restr.Accepts, Bool.or_eq_true, Bool.and_eq_true, cGt_iff h1, cEq_iff h1,
      cLt_iff h2, cEq_iff h2]; omega
  | oor lo hi =>
    have h1 := h lo (by simp [Restr.lits])
    have h2 := h hi (by simp [Restr.lits])
    simp only [Restr.valid, Restr.Accepts, Bool.or_eq_true, cLt_iff h1, cGt_iff h2]

/-- C18: for constants of the same signedness (or types narrower than int) nothing is excluded. -/
theorem C18_restriction_exact_same_sign (t : IntTy) (v : Int) (r : Restr) (hv : t.Represents v)
    (h : ∀ l ∈ r.lits, l.ty.signed = t.signed ∧ l.ty.Represents l.val) : r.valid t v = true ↔ r.Accepts v := by
  apply C18_restriction_exact_partial
  intro l hl
  obtain ⟨h1, h2⟩ := h l hl
  refine ⟨hv, h2, ?_⟩
  cases hs : t.signed with
  | false =>
    unfold IntTy.Represents at hv h2
    rw [hs] at hv h1
    rw [h1] at h2
    exact .inr ⟨hv.1, h2.1⟩
  | true =>
    left
    rw [hs] at h1
    unfold IntTy.common IntTy.promote
    by_cases a1 : t.bits < 32 <;> by_cases a2 : l.ty.bits < 32 <;> simp [a1, a2, hs, h1] <;> split <;> simp [hs, h1]

example : (Restr.ir ⟨i32, -5⟩ ⟨i32, 10⟩).valid i32 (-5) = true ∧ (Restr.nx ⟨i32, 1⟩ [⟨i32, 2⟩]).valid i32 3 = false := by
  decide
example : i32.Represents (-5) ∧ ∀ l ∈ (Restr.ir ⟨i32, -5⟩ ⟨i32, 10⟩).lits, l.ty.signed = i32.signed ∧ l.ty.Represents l.val := by
  unfold IntTy.Represents; decide

/-- `ss::gt<unsigned, -1>` rejects 5, although 5 > -1; `ss::lt<int, 5u>` rejects -1. -/
theorem C18_mixed_sign_wraps :
    (Restr.gt ⟨i32, -1⟩).valid u32 5 = false ∧ (Restr.gt ⟨i32, -1⟩).Accepts 5 ∧
    (Restr.lt ⟨u32, 5⟩).valid i32 (-1) = false ∧ (Restr.lt ⟨u32, 5⟩).Accepts (-1) := by
  refine ⟨by decide, ?_, by decide, ?_⟩ <;> simp [Restr.Accepts]

/-- C18 (`ne`): exactly the non-empty texts. -/
theorem C18_non_empty (s : Bytes) : neValid (.str s) = true ↔ s ≠ [] := by
  cases s <;> simp [neValid]

end Ssp
