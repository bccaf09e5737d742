import Verif.Spec.Number
/-!
# Lemmas on digits and extraction
-/
namespace Ssp

theorem isDigit_iff (b : Byte) : isDigit b = true ↔ ∃ k, k < 10 ∧ b = UInt8.ofNat (48 + k) := by
  constructor
  · intro h
    simp only [isDigit, Bool.and_eq_true, decide_eq_true_eq, UInt8.le_iff_toNat_le] at h
    have h1 : (48 : UInt8).toNat = 48 := rfl
    have h2 : (57 : UInt8).toNat = 57 := rfl
    rw [h1, h2] at h
    refine ⟨b.toNat - 48, by omega, ?_⟩
    apply UInt8.toNat_inj.mp
    simp [UInt8.toNat_ofNat']
    omega
  · rintro ⟨k, hk, rfl⟩
    simp only [isDigit, Bool.and_eq_true, decide_eq_true_eq, UInt8.le_iff_toNat_le]
    have h1 : (48 : UInt8).toNat = 48 := rfl
    have h2 : (57 : UInt8).toNat = 57 := rfl
    rw [h1, h2, UInt8.toNat_ofNat']
    omega

theorem digit_val {k : Nat} (hk : k < 10) : (UInt8.ofNat (48 + k)).toNat - 48 = k := by
  rw [UInt8.toNat_ofNat']; omega

theorem digitsVal_snoc (ds : Bytes) (b : Byte) : digitsVal (ds ++ [b]) = 10 * digitsVal ds + (b.toNat - 48) := by
  simp [digitsVal, List.foldl_append]

theorem Digits.sound {ds : Bytes} {n : Nat} (h : Digits ds n) :
    ds ≠ [] ∧ (∀ b ∈ ds, isDigit b = true) ∧ digitsVal ds = n := by
  induction h with
  | @one k hk =>
    refine ⟨by simp, ?_, ?_⟩
    · intro b hb; rw [List.mem_singleton] at hb; exact (isDigit_iff b).mpr ⟨k, hk, hb⟩
    · simp [digitsVal]; omega
  | @snoc ds n k _ hk ih =>
    obtain ⟨_, h2, h3⟩ := ih
    refine ⟨by simp, ?_, ?_⟩
    · intro b hb
      rcases List.mem_append.mp hb with hb | hb
      · exact h2 b hb
      · rw [List.mem_singleton] at hb; exact (isDigit_iff b).mpr ⟨k, hk, hb⟩
    · rw [digitsVal_snoc, h3, digit_val hk]

theorem Digits.complete : ∀ (m : Nat) (ds : Bytes), ds.length = m → ds ≠ [] → (∀ b ∈ ds, isDigit b = true) →
    Digits ds (digitsVal ds) := by
  intro m
  induction m with
  | zero => intro ds h h1; exact absurd (List.length_eq_zero_iff.mp h) h1
  | succ m ih =>
    intro ds hm hne hd
    obtain ⟨es, b, rfl⟩ : ∃ es b, ds = es ++ [b] := ⟨ds.dropLast, ds.getLast hne, (List.dropLast_concat_getLast hne).symm⟩
    obtain ⟨k, hk, rfl⟩ := (isDigit_iff b).mp (hd b (by simp))
    rw [digitsVal_snoc, digit_val hk]
    by_cases hes : es = []
    · subst hes; simpa [digitsVal] using Digits.one hk
    · exact .snoc (ih es (by simpa using hm) hes (fun x hx => hd x (by simp [hx]))) hk

theorem takeWhile_all {p : Byte → Bool} {l : Bytes} (h : ∀ x ∈ l, p x = true) : l.takeWhile p = l := by
  induction l with
  | nil => rfl
  | cons x l ih => simp [List.takeWhile_cons, h x (by simp), ih (fun y hy => h y (by simp [hy]))]

theorem takeWhile_length_eq {p : Byte → Bool} {l : Bytes} (h : (l.takeWhile p).length = l.length) :
    ∀ x ∈ l, p x = true := by
  induction l with
  | nil => intro x hx; cases hx
  | cons y l ih =>
    simp only [List.takeWhile_cons] at h
    split at h
    · intro x hx
      rcases List.mem_cons.mp hx with rfl | hx
      · assumption
      · exact ih (by simpa using h) x hx
    · simp at h

theorem minus_not_digit : isDigit 45 = false := by decide

theorem range_iff (t : IntTy) (n : Int) : (t.min ≤ n ∧ n ≤ t.max) ↔ t.Represents n := by
  unfold IntTy.min IntTy.max IntTy.Represents
  have h : ∀ k : Nat, ((2 ^ k : Nat) : Int) = (2 : Int) ^ k := by intro k; simp
  cases t.signed <;> simp only [h, Bool.false_eq_true, if_false, if_true] <;> omega

/-- `to_num` accepts exactly the literals in range. -/
theorem toNum_iff (t : IntTy) (s : Bytes) (n : Int) :
    toNum t s = some n ↔ Literal t.signed s n ∧ t.Represents n := by
  unfold toNum fromChars
  constructor
  · intro h
    by_cases hneg : (t.signed && s.head? == some 45) = true
    · simp only [hneg, if_true] at h
      simp only [Bool.and_eq_true, beq_iff_eq] at hneg
      obtain ⟨hsg, hh⟩ := hneg
      cases s with
      | nil => cases hh
      | cons x s =>
        simp only [List.head?_cons, Option.some.injEq] at hh
        subst hh
        simp only [List.tail_cons, List.length_cons] at h
        by_cases hne : s.takeWhile isDigit = []
        · simp [hne] at h
        · by_cases hr : t.min ≤ -(digitsVal (s.takeWhile isDigit) : Int) ∧
              -(digitsVal (s.takeWhile isDigit) : Int) ≤ t.max
          · simp only [hne, hr, and_self, if_true, if_false] at h
            split at h
            · cases h
            · rename_i hp
              simp only [Option.some.injEq] at h
              have hl : (s.takeWhile isDigit).length = s.length := by omega
              have hall := takeWhile_length_eq hl
              rw [h] at hr
              refine ⟨?_, (range_iff t n).mp hr⟩
              rw [takeWhile_all hall] at h hne
              rw [← h]
              exact .neg hsg (Digits.complete _ s rfl hne hall)
          · simp only [hne, hr, if_false] at h
            cases h
    · simp only [hneg, if_false, Bool.false_eq_true] at h
      by_cases hne : s.takeWhile isDigit = []
      · simp [hne] at h
      · by_cases hr : t.min ≤ (digitsVal (s.takeWhile isDigit) : Int) ∧
            (digitsVal (s.takeWhile isDigit) : Int) ≤ t.max
        · simp only [hne, hr, and_self, if_true, if_false] at h
          split at h
          · cases h
          · rename_i hp
            simp only [Option.some.injEq] at h
            have hl : (s.takeWhile isDigit).length = s.length := by omega
            have hall := takeWhile_length_eq hl
            rw [h] at hr
            refine ⟨?_, (range_iff t n).mp hr⟩
            rw [takeWhile_all hall] at h hne
            rw [← h]
            exact .nat (Digits.complete _ s rfl hne hall)
        · simp only [hne, hr, if_false] at h
          cases h
  · rintro ⟨hl, hr⟩
    have hr' := (range_iff t n).mpr hr
    cases hl with
    | @nat ds k hd =>
      obtain ⟨h1, h2, h3⟩ := hd.sound
      have hneg : (t.signed && s.head? == some 45) = false := by
        cases s with
        | nil => simp
        | cons x s =>
          have : x ≠ 45 := by
            intro h; have := h2 x (by simp); rw [h, minus_not_digit] at this; cases this
          simp [this]
      simp only [hneg, Bool.false_eq_true, if_false, takeWhile_all h2, h1, h3, hr', and_self, if_true]
      simp
    | @neg ds k hs hd =>
      obtain ⟨h1, h2, h3⟩ := hd.sound
      have hneg : (t.signed && (45 :: ds).head? == some 45) = true := by simp [hs]
      simp only [hneg, if_true, List.tail_cons, takeWhile_all h2, h1, h3, hr', and_self, if_false]
      simp; omega

theorem decAux_digits : ∀ (f n : Nat) (acc : Bytes), n < f →
    ∃ ds, Digits ds n ∧ decAux f n acc = ds ++ acc := by
  intro f
  induction f with
  | zero => intro n acc h; omega
  | succ f ih =>
    intro n acc h
    simp only [decAux]
    split
    · rename_i h0
      have : n < 10 := by omega
      exact ⟨_, .one this, by rw [Nat.mod_eq_of_lt this]; rfl⟩
    · rename_i h0
      obtain ⟨ds, h1, h2⟩ := ih (n / 10) (UInt8.ofNat (48 + n % 10) :: acc) (by omega)
      refine ⟨ds ++ [UInt8.ofNat (48 + n % 10)], ?_, by rw [h2]; simp⟩
      have := Digits.snoc (k := n % 10) h1 (by omega)
      rwa [show 10 * (n / 10) + n % 10 = n by omega] at this

theorem dec_digits (n : Nat) : Digits (dec n) n := by
  obtain ⟨ds, h1, h2⟩ := decAux_digits (n + 1) n [] (by omega)
  rw [dec, h2, List.append_nil]; exact h1

theorem decimal_literal (s : Bool) (n : Int) (h : s = true ∨ 0 ≤ n) : Literal s (decimal n) n := by
  unfold decimal
  split
  · have hs : s = true := by rcases h with h | h; exact h; omega
    have := Literal.neg hs (dec_digits n.natAbs)
    rwa [show -(n.natAbs : Int) = n by omega] at this
  · have := Literal.nat (signed := s) (dec_digits n.natAbs)
    rwa [show (n.natAbs : Int) = n by omega] at this

theorem Digits.unique {ds : Bytes} {n m : Nat} (h : Digits ds n) (h' : Digits ds m) : n = m := by
  rw [← h.sound.2.2, ← h'.sound.2.2]

/-! ## extraction depends on the text only -/

theorem textAt_self (s : Bytes) : textAt (s ++ [NUL]) 0 s.length = s := by simp [textAt]

theorem textAt_length {mem : Bytes} {b e : Nat} (h : b ≤ e) (h' : e ≤ mem.length) :
    (textAt mem b e).length = e - b := by simp [textAt]; omega

theorem head_of_text {mem : Bytes} {b e : Nat} {x : Byte} {xs : Bytes} (h : textAt mem b e = x :: xs) :
    mem[b]? = some x := by
  have h1 : (mem.drop b).head? = some x := by
    unfold textAt at h
    cases hd : mem.drop b with
    | nil => rw [hd] at h; simp at h
    | cons y ys =>
      rw [hd] at h
      cases hn : e - b with
      | zero => rw [hn] at h; simp at h
      | succ k => rw [hn] at h; simp at h; simp [h.1]
  rwa [List.head?_drop] at h1

mutual
/-- Success and the stored value depend only on the text of the column. -/
theorem extract_text {mem mem' : Bytes} {b e b' e' : Nat} (h1 : b ≤ e) (h2 : e < mem.length) (h1' : b' ≤ e')
    (h2' : e' < mem'.length) (ht : textAt mem b e = textAt mem' b' e') :
    ∀ (t : Ty) (dst : Val), ∃ r r', extract mem b e t dst = some r ∧ extract mem' b' e' t dst = some r' ∧
      r.1 = r'.1 ∧ (r.1 = true → r.2 = r'.2)
  | .int t, dst => by
    simp only [extract, ← ht]
    split <;> exact ⟨_, _, rfl, rfl, rfl, fun _ => rfl⟩
  | .bool, dst => by simp only [extract, ← ht]; exact ⟨_, _, rfl, rfl, rfl, fun _ => rfl⟩
  | .char, dst => by
    have hl := textAt_length h1 (Nat.le_of_lt h2)
    have hl' := textAt_length h1' (Nat.le_of_lt h2')
    rw [ht] at hl
    simp only [extract]
    rw [List.getElem?_eq_getElem (by omega), List.getElem?_eq_getElem (by omega)]
    refine ⟨_, _, rfl, rfl, ?_, ?_⟩
    · rw [Bool.eq_iff_iff]; simp; omega
    · intro h
      simp only [beq_iff_eq] at h
      cases hx : textAt mem' b' e' with
      | nil => rw [hx] at hl; simp at hl; omega
      | cons x xs =>
        have e1 := head_of_text hx
        have e2 := head_of_text (ht.trans hx)
        rw [List.getElem?_eq_getElem (by omega)] at e1 e2
        simp only [Option.some.injEq] at e1 e2
        simp [e1, e2]
  | .str, dst => by simp only [extract, ← ht]; exact ⟨_, _, rfl, rfl, rfl, fun _ => rfl⟩
  | .view, dst => by simp only [extract, ← ht]; exact ⟨_, _, rfl, rfl, rfl, fun _ => rfl⟩
  | .opt t, dst => by
    obtain ⟨⟨r1, r2⟩, ⟨r1', r2'⟩, e1, e2, e3, e4⟩ := extract_text h1 h2 h1' h2' ht t t.dflt
    simp only [extract, e1, e2]
    simp only at e3 e4
    subst e3
    cases r1 with
    | true => have := e4 rfl; subst this; exact ⟨_, _, rfl, rfl, rfl, fun _ => rfl⟩
    | false => exact ⟨_, _, rfl, rfl, rfl, fun _ => rfl⟩
  | .variant ts, dst => by
    simp only [extract]
    exact extractVariant_text h1 h2 h1' h2' ht ts 0 dst
  | .custom d f, dst => by simp only [extract, ← ht]; exact ⟨_, _, rfl, rfl, rfl, fun _ => rfl⟩

theorem extractVariant_text {mem mem' : Bytes} {b e b' e' : Nat} (h1 : b ≤ e) (h2 : e < mem.length) (h1' : b' ≤ e')
    (h2' : e' < mem'.length) (ht : textAt mem b e = textAt mem' b' e') :
    ∀ (ts : List Ty) (i : Nat) (dst : Val), ∃ r r', extractVariant mem b e ts i dst = some r ∧
      extractVariant mem' b' e' ts i dst = some r' ∧ r.1 = r'.1 ∧ (r.1 = true → r.2 = r'.2)
  | [], i, dst => by simp only [extractVariant]; exact ⟨_, _, rfl, rfl, rfl, fun _ => rfl⟩
  | t :: ts, i, dst => by
    obtain ⟨⟨r1, r2⟩, ⟨r1', r2'⟩, e1, e2, e3, e4⟩ := extract_text h1 h2 h1' h2' ht t t.dflt
    simp only [extractVariant, e1, e2]
    simp only at e3 e4
    subst e3
    cases r1 with
    | true => have := e4 rfl; subst this; exact ⟨_, _, rfl, rfl, rfl, fun _ => rfl⟩
    | false => exact extractVariant_text h1 h2 h1' h2' ht ts (i + 1) dst
end

/-- Extraction from a range inside a block is the conversion of its text. -/
theorem extract_conv {mem : Bytes} {b e : Nat} (h1 : b ≤ e) (h2 : e < mem.length) (t : Ty) :
    ∃ r, extract mem b e t t.dflt = some r ∧
      ((r.1 = true ∧ conv t (textAt mem b e) = some r.2) ∨ (r.1 = false ∧ conv t (textAt mem b e) = none)) := by
  have hl := textAt_length h1 (Nat.le_of_lt h2)
  obtain ⟨r, r', e1, e2, e3, e4⟩ := extract_text (mem := mem) (mem' := textAt mem b e ++ [NUL]) (b := b) (e := e)
    (b' := 0) (e' := (textAt mem b e).length) h1 h2 (by omega) (by simp) (textAt_self _).symm t t.dflt
  refine ⟨r, e1, ?_⟩
  unfold conv
  rw [e2]
  obtain ⟨r1, r2⟩ := r
  obtain ⟨r1', r2'⟩ := r'
  simp only at e3 e4
  subst e3
  cases r1 with
  | true => have := e4 rfl; subst this; exact .inl ⟨rfl, rfl⟩
  | false => exact .inr ⟨rfl, rfl⟩

theorem conv_total (t : Ty) (s : Bytes) : ∃ r, extract (s ++ [NUL]) 0 s.length t t.dflt = some r := by
  obtain ⟨r, h, _⟩ := extract_conv (mem := s ++ [NUL]) (b := 0) (e := s.length) (by omega) (by simp) t
  exact ⟨r, h⟩

end Ssp
