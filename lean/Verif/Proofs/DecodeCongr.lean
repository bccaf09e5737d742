import Verif.Proofs.SplitPure
/-!
# Decoding depends only on the match characters of the setup
-/
namespace Ssp
open Spec

/-- same match characters -/
structure SameChars (c c' : Cfg) : Prop where
  q : c'.quote = c.quote
  e : c'.escape = c.escape
  l : c'.trimL = c.trimL
  r : c'.trimR = c.trimR

theorem field_congr {c c' : Cfg} (h : SameChars c c') (d : Bytes) (m : Mode) (acc r : Bytes) :
    field c' d m acc r = field c d m acc r := by
  have ha : ∀ r, afterDelim c' d r = afterDelim c d r := by intro r; simp [afterDelim, h.l]
  have key : ∀ n r, r.length < n → ∀ m acc, field c' d m acc r = field c d m acc r := by
    intro n
    induction n with
    | zero => intro r hr; omega
    | succ n ih =>
      intro r hr m acc
      cases m with
      | normal =>
        rw [field_normal_eq, field_normal_eq, h.r, h.e]
        have hl := length_dropWhile_le (fun x => decide (x ∈ c.trimR)) r
        cases hd : r.dropWhile (fun x => decide (x ∈ c.trimR)) with
        | nil => rfl
        | cons x xs =>
          rw [hd] at hl; simp only [List.length_cons] at hl
          simp only [ha]
          have h1 := ih xs (by omega)
          cases xs with
          | nil => simp only [h1]
          | cons y ys => simp only [h1, ih ys (by simp at hl; omega)]
      | quoted =>
        rw [field_quoted_eq, field_quoted_eq, h.r, h.e, h.q]
        cases r with
        | nil => rfl
        | cons x xs =>
          simp only [List.length_cons] at hr
          have h1 := ih xs (by omega)
          simp only [ha, h1]
          cases xs with
          | nil => rfl
          | cons y ys =>
            simp only [List.length_cons] at hr
            simp only [ih ys (by omega), ih ys.tail (by simp; omega)]
  exact key _ _ (Nat.lt_succ_self _) _ _

theorem decode_congr {c c' : Cfg} (h : SameChars c c') {d : Bytes} (hd : d ≠ []) (m : Mode) (acc r : Bytes) :
    decode c' d m acc r = decode c d m acc r := by
  have hs : ∀ r, start c' r = start c r := by intro r; cases r <;> simp [start, h.q]
  have key : ∀ n r, r.length < n → ∀ m acc, decode c' d m acc r = decode c d m acc r := by
    intro n
    induction n with
    | zero => intro r hr; omega
    | succ n ih =>
      intro r hr m acc
      cases hf : field c d m acc r with
      | next f rest =>
        have hl := field_next_length c d hd m acc r f rest hf
        rw [decode_next hd hf, decode_next hd ((field_congr h d m acc r).trans hf)]
        have : decodeFields c' d rest = decodeFields c d rest := by
          unfold decodeFields
          rw [hs]
          exact ih _ (by have := start_length_le c rest; omega) _ _
        rw [this]
      | last f e => rw [decode_last hf, decode_last ((field_congr h d m acc r).trans hf)]
      | stop e => rw [decode_stop hf, decode_stop ((field_congr h d m acc r).trans hf)]
  exact key _ _ (Nat.lt_succ_self _) _ _

theorem decodeRow_congr {c c' : Cfg} (h : SameChars c c') {d : Bytes} (hd : d ≠ []) (r : Bytes) :
    decodeRow c' d r = decodeRow c d r := by
  have hs : ∀ r, start c' r = start c r := by intro r; cases r <;> simp [start, h.q]
  simp only [decodeRow, decodeFields, h.l, hs, decode_congr h hd]

end Ssp
