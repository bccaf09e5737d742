import Verif.Spec.Chars
import Verif.Proofs.DecodeCongr
import Verif.Proofs.SplitLoop
/-!
# Decoding depends on the match characters only as far as they occur in the text
-/
namespace Ssp
open Spec

/-- the setups agree on every byte of a text -/
def AgreeIn (c c' : Cfg) (t : Bytes) : Prop := ∀ b ∈ t, c.AgreeAt c' b

namespace AgreeIn
variable {c c' : Cfg} {s t : Bytes}

theorem nil : AgreeIn c c' [] := fun _ h => by cases h
theorem mono (h : AgreeIn c c' t) (hs : ∀ b ∈ s, b ∈ t) : AgreeIn c c' s := fun b hb => h b (hs b hb)
theorem append (h1 : AgreeIn c c' s) (h2 : AgreeIn c c' t) : AgreeIn c c' (s ++ t) := fun b hb =>
  (List.mem_append.mp hb).elim (h1 b) (h2 b)
theorem left (h : AgreeIn c c' (s ++ t)) : AgreeIn c c' s := h.mono fun _ hb => List.mem_append_left _ hb
theorem right (h : AgreeIn c c' (s ++ t)) : AgreeIn c c' t := h.mono fun _ hb => List.mem_append_right _ hb
theorem tail {a : Byte} (h : AgreeIn c c' (a :: t)) : AgreeIn c c' t := h.mono fun _ hb => List.mem_cons_of_mem _ hb
theorem drop (h : AgreeIn c c' t) (n : Nat) : AgreeIn c c' (t.drop n) := h.mono fun _ hb => List.mem_of_mem_drop hb
theorem take (h : AgreeIn c c' t) (n : Nat) : AgreeIn c c' (t.take n) := h.mono fun _ hb => List.mem_of_mem_take hb
theorem dropWhile (h : AgreeIn c c' t) (p : Byte → Bool) : AgreeIn c c' (t.dropWhile p) := h.mono fun _ hb =>
  (List.dropWhile_sublist p).subset hb
end AgreeIn

theorem dropWhile_agree {p p' : Byte → Bool} : ∀ {l : Bytes}, (∀ b ∈ l, p b = p' b) → l.dropWhile p = l.dropWhile p'
  | [], _ => rfl
  | a :: l, h => by
    simp only [List.dropWhile, h a (by simp)]
    split
    · exact dropWhile_agree fun b hb => h b (by simp [hb])
    · rfl

theorem takeWhile_agree {p p' : Byte → Bool} : ∀ {l : Bytes}, (∀ b ∈ l, p b = p' b) → l.takeWhile p = l.takeWhile p'
  | [], _ => rfl
  | a :: l, h => by
    simp only [List.takeWhile, h a (by simp)]
    split
    · rw [takeWhile_agree fun b hb => h b (by simp [hb])]
    · rfl

section
variable {c c' : Cfg}

theorem AgreeIn.trimR {t : Bytes} (h : AgreeIn c c' t) : ∀ b ∈ t, decide (b ∈ c'.trimR) = decide (b ∈ c.trimR) :=
  fun b hb => by simp [(h b hb).trimRight]
theorem AgreeIn.trimL {t : Bytes} (h : AgreeIn c c' t) : ∀ b ∈ t, decide (b ∈ c'.trimL) = decide (b ∈ c.trimL) :=
  fun b hb => by simp [(h b hb).trimLeft]
theorem AgreeIn.escapes {t : Bytes} (h : AgreeIn c c' t) : ∀ b ∈ t, decide (b ∈ c'.escape) = decide (b ∈ c.escape) :=
  fun b hb => by simp [(h b hb).escape]

theorem afterDelim_alike {t : Bytes} (h : AgreeIn c c' t) (d : Bytes) : afterDelim c' d t = afterDelim c d t :=
  dropWhile_agree (h.drop _).trimL

theorem field_alike (d : Bytes) (m : Mode) (acc r : Bytes) (ha : AgreeIn c c' r) : field c' d m acc r = field c d m acc r := by
  have key : ∀ n r, r.length < n → AgreeIn c c' r → ∀ m acc, field c' d m acc r = field c d m acc r := by
    intro n
    induction n with
    | zero => intro r hr; omega
    | succ n ih =>
      intro r hr ha m acc
      cases m with
      | normal =>
        rw [field_normal_eq, field_normal_eq, dropWhile_agree ha.trimR, takeWhile_agree ha.trimR]
        have hl := length_dropWhile_le (fun x => decide (x ∈ c.trimR)) r
        have had := ha.dropWhile (fun x => decide (x ∈ c.trimR))
        cases hd : r.dropWhile (fun x => decide (x ∈ c.trimR)) with
        | nil => rfl
        | cons x xs =>
          rw [hd] at hl had; simp only [List.length_cons] at hl
          have h1 := ih xs (by omega) had.tail
          have he : x ∈ c'.escape ↔ x ∈ c.escape := (had x (by simp)).escape.symm
          simp only [afterDelim_alike had, he]
          cases xs with
          | nil => simp only [h1]
          | cons y ys => simp only [h1, ih ys (by simp at hl; omega) had.tail.tail]
      | quoted =>
        rw [field_quoted_eq, field_quoted_eq]
        cases r with
        | nil => rfl
        | cons x xs =>
          simp only [List.length_cons] at hr
          have h1 := ih xs (by omega) ha.tail
          have hq : c'.quote = some x ↔ c.quote = some x := (ha x (by simp)).quote.symm
          have he : x ∈ c'.escape ↔ x ∈ c.escape := (ha x (by simp)).escape.symm
          have had := ha.tail.dropWhile (fun x => decide (x ∈ c.trimR))
          simp only [h1, ne_eq, hq, he, dropWhile_agree ha.tail.trimR]
          have hf : ∀ y ys, xs = y :: ys → ∀ acc, field c' d .quoted acc ys = field c d .quoted acc ys ∧
              field c' d .quoted acc ys.tail = field c d .quoted acc ys.tail := by
            intro y ys e acc
            subst e
            simp only [List.length_cons] at hr
            exact ⟨ih ys (by omega) ha.tail.tail _ _, ih ys.tail (by simp; omega)
              (ha.tail.tail.mono fun _ hb => List.mem_of_mem_tail hb) _ _⟩
          cases hz : xs.dropWhile (fun x => decide (x ∈ c.trimR)) with
          | nil =>
            cases xs with
            | nil => rfl
            | cons y ys => simp only [(hf y ys rfl _).1]
          | cons z zs =>
            rw [hz] at had
            have hze : z ∈ c'.escape ↔ z ∈ c.escape := (had z (by simp)).escape.symm
            simp only [afterDelim_alike had, hze]
            cases xs with
            | nil => rfl
            | cons y ys =>
              have hye : y ∈ c'.escape ↔ y ∈ c.escape := (ha.tail y (by simp)).escape.symm
              simp only [(hf y ys rfl _).1, (hf y ys rfl _).2, hye]
  exact key _ _ (Nat.lt_succ_self _) ha _ _

theorem start_alike {r : Bytes} (h : AgreeIn c c' r) : start c' r = start c r := by
  cases r with
  | nil => rfl
  | cons x xs => simp only [start, (h x (by simp)).quote]

theorem start_sub {r : Bytes} : ∀ b ∈ (start c r).2, b ∈ r := by
  intro b hb
  cases r with
  | nil => exact hb
  | cons x xs =>
    simp only [start] at hb
    split at hb
    · exact List.mem_cons_of_mem _ hb
    · exact hb

theorem decode_alike {d : Bytes} (hd : d ≠ []) (m : Mode) (acc r : Bytes) (ha : AgreeIn c c' r) :
    decode c' d m acc r = decode c d m acc r ∧ openLen c' d m acc r = openLen c d m acc r := by
  have key : ∀ n r, r.length < n → AgreeIn c c' r → ∀ m acc, decode c' d m acc r = decode c d m acc r ∧
      openLen c' d m acc r = openLen c d m acc r := by
    intro n
    induction n with
    | zero => intro r hr; omega
    | succ n ih =>
      intro r hr ha m acc
      have hf' := field_alike d m acc r ha
      cases hf : field c d m acc r with
      | next f rest =>
        have hl := field_next_length c d hd m acc r f rest hf
        have hsub := field_next_sub c d m acc r f rest hf
        have har : AgreeIn c c' rest := ha.mono hsub
        obtain ⟨i1, i2⟩ := ih (start c rest).2 (by have := start_length_le c rest; omega) (har.mono start_sub) (start c rest).1 []
        refine ⟨?_, ?_⟩
        · rw [decode_next hd hf, decode_next hd (hf'.trans hf)]
          have : decodeFields c' d rest = decodeFields c d rest := by
            unfold decodeFields
            rw [start_alike har, i1]
          rw [this]
        · rw [openLen_next hd hf, openLen_next hd (hf'.trans hf), start_alike har, i2]
      | last f e =>
        refine ⟨by rw [decode_last hf, decode_last (hf'.trans hf)], ?_⟩
        rw [openLen, openLen]
        split
        · rename_i h'; rw [hf', hf] at h'; cases h'
        · split
          · rename_i h'; rw [hf] at h'; cases h'
          · rfl
      | stop e => exact ⟨by rw [decode_stop hf, decode_stop (hf'.trans hf)], by rw [openLen_stop hf, openLen_stop (hf'.trans hf)]⟩
  exact key _ _ (Nat.lt_succ_self _) ha _ _

theorem decodeRow_alike {d : Bytes} (hd : d ≠ []) {r : Bytes} (ha : AgreeIn c c' r) :
    decodeRow c' d r = decodeRow c d r ∧ openLenRow c' d r = openLenRow c d r := by
  have h1 : AgreeIn c c' (r.dropWhile (· ∈ c.trimL)) := ha.dropWhile _
  obtain ⟨e1, e2⟩ := decode_alike hd (start c (r.dropWhile (· ∈ c.trimL))).1 []
    (start c (r.dropWhile (· ∈ c.trimL))).2 (h1.mono start_sub)
  unfold decodeRow decodeFields openLenRow
  simp only
  rw [dropWhile_agree ha.trimL, start_alike h1]
  exact ⟨e1, e2⟩

/-! ## The open field consists of characters of the text -/

theorem field_open_sub {d : Bytes} {m : Mode} {acc r a : Bytes} (h : field c d m acc r = .stop (.openQuote a)) :
    ∀ b ∈ a, b ∈ acc ∨ b ∈ r := by
  fun_induction field c d m acc r with
  | case1 => cases h
  | case2 => cases h
  | case3 => cases h
  | case4 => rename_i ih; exact absurd (field_stop_quoted _ _ _ _ _ _ h) (by decide)
  | case5 => rename_i ih; exact absurd (field_stop_quoted _ _ _ _ _ _ h) (by decide)
  | case6 => cases h; exact fun b hb => .inl hb
  | case7 => cases h
  | case8 => rename_i ih; intro b hb; have := ih h b hb; simp at this ⊢; grind
  | case9 => rename_i ih; intro b hb; have := ih h b hb; simp at this ⊢; grind
  | case10 => cases h
  | case11 => cases h
  | case12 => cases h
  | case13 => rename_i ih; intro b hb; have := ih h b hb; simp at this ⊢; grind
  | case14 =>
    rename_i ih
    intro b hb
    rcases ih h b hb with h1 | h1
    · simp at h1 ⊢; grind
    · have := List.mem_of_mem_tail h1; simp; grind
  | case15 => cases h
  | case16 => cases h
  | case17 => cases h

theorem decode_open_sub {d : Bytes} (hd : d ≠ []) {m : Mode} {acc r a : Bytes} (h : (decode c d m acc r).2 = .openQuote a) :
    ∀ b ∈ a, b ∈ acc ∨ b ∈ r := by
  have key : ∀ n r, r.length < n → ∀ m acc, (decode c d m acc r).2 = .openQuote a → ∀ b ∈ a, b ∈ acc ∨ b ∈ r := by
    intro n
    induction n with
    | zero => intro r hr; omega
    | succ n ih =>
      intro r hr m acc h b hb
      cases hf : field c d m acc r with
      | next f rest =>
        have hl := field_next_length c d hd m acc r f rest hf
        have hsub := field_next_sub c d m acc r f rest hf
        rw [decode_next hd hf] at h
        have h : (decode c d (start c rest).1 [] (start c rest).2).2 = .openQuote a := h
        rcases ih _ (by have := start_length_le c rest; omega) _ _ h b hb with h1 | h1
        · cases h1
        · exact .inr (hsub b (start_sub b h1))
      | last f e =>
        rw [decode_last hf] at h
        rcases field_last_end c d m acc r f e hf with rfl | rfl <;> cases h
      | stop e =>
        rw [decode_stop hf] at h
        have h : e = .openQuote a := h
        subst h
        exact field_open_sub hf b hb
  exact key _ _ (Nat.lt_succ_self _) _ _ h

theorem decodeRow_open_sub {d : Bytes} (hd : d ≠ []) {r a : Bytes} (h : (decodeRow c d r).2 = .openQuote a) : ∀ b ∈ a, b ∈ r := by
  intro b hb
  rcases decode_open_sub hd (show (decode c d _ _ _).2 = _ from h) b hb with h1 | h1
  · cases h1
  · exact (List.dropWhile_sublist _).subset (start_sub b h1)

end
end Ssp
