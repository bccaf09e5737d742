import Verif.Model.Strtod
/-!
# C46: floating point conversion in the single header build
-/
namespace Ssp

theorem cutNul_append {t r : Bytes} (h : NUL ∉ t) : cutNul (t ++ NUL :: r) = t := by
  unfold cutNul
  induction t with
  | nil => simp
  | cons x xs ih =>
    simp only [List.mem_cons, not_or] at h
    have : x ≠ NUL := fun h' => h.1 h'.symm
    rw [List.cons_append, List.takeWhile_cons, if_pos (by simp [this]), ih h.2]

theorem drop_set_self {l : Bytes} {k : Nat} {b : Byte} (h : k < l.length) : (l.set k b).drop k = b :: l.drop (k + 1) := by
  induction l generalizing k with
  | nil => simp at h
  | cons x xs ih =>
    cases k with
    | zero => simp
    | succ k => simpa using ih (by simpa using h)

/-- C46, columns of every length but 64: nothing outside the buffers is touched, the result does not depend on the
uninitialised bytes, and the column is accepted iff `strtod` consumes all of it.
Missing: a column of exactly 64 bytes (see `C46_length_64_out_of_bounds`). -/
theorem C46_float_in_bounds_partial (st : Strtod) (junk : Nat → Byte) (t : Bytes) (hn : NUL ∉ t) (hl : t.length ≠ 64) :
    toNumFloat st junk t = some (if (st.parse t).2 = t.length then some (st.parse t).1 else none) := by
  unfold toNumFloat
  by_cases h : t.length > buffMax
  · simp only [h, if_true]
    rw [if_pos (by simp), cutNul_append hn]
    by_cases h' : (st.parse t).2 = t.length <;> simp [h']
  · have hlt : t.length < ((List.range buffMax).map junk).length := by
      simp only [List.length_map, List.length_range]; simp only [buffMax] at h ⊢; omega
    simp only [h, if_false, hlt, if_true, drop_set_self hlt]
    rw [if_pos (by simp), cutNul_append hn]
    by_cases h' : (st.parse t).2 = t.length <;> simp [h']

/-- C46, violated: a column of exactly 64 bytes writes the terminator behind the 64 byte buffer. -/
theorem C46_length_64_out_of_bounds (st : Strtod) (junk : Nat → Byte) (t : Bytes) (h : t.length = 64) :
    toNumFloat st junk t = none := by
  unfold toNumFloat
  simp [h, buffMax]

/-- C46: an empty column is accepted (as the value `strtod` gives to the empty string), unlike an empty integer. -/
theorem C46_empty_is_accepted (st : Strtod) (junk : Nat → Byte) : toNumFloat st junk [] = some (some (st.parse []).1) := by
  rw [C46_float_in_bounds_partial st junk [] (by simp) (by simp)]
  have := st.inside []
  simp only [List.length_nil, Nat.le_zero_eq] at this
  rw [if_pos (by simpa using this)]

/-- A `strtod` that knows one digit numbers, and a column it does not consume entirely. -/
def digitStrtod : Strtod where
  parse s := match s with
    | [] => (0, 0)
    | x :: _ => if 48 ≤ x ∧ x ≤ 57 then (x.toNat - 48, 1) else (0, 0)
  inside s := by
    cases s with
    | nil => simp
    | cons x xs => simp only; split <;> simp

example : toNumFloat digitStrtod (fun _ => 255) (bs "7") = some (some 7) ∧
    toNumFloat digitStrtod (fun _ => 255) (bs "7x") = some none := by decide +kernel

end Ssp
