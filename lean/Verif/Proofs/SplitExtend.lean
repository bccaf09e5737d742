import Verif.Proofs.SplitResume
/-!
# Completing a row by a delimiter and further text (single byte delimiters)
-/
namespace Ssp.Spec
open Text

section
set_option linter.unusedSectionVars false
variable {c : Cfg} (hc : c.WF) {d0 : Byte} (hd : GoodDelim c d0)
include hc hd

theorem good_clean : Clean c [d0] :=
  ⟨by simp, by intro x hx; simp at hx; subst hx; exact ⟨hd.quote, hd.escape⟩⟩

/-- what `field` says about `r ++ d0 :: R` -/
def Extends (c : Cfg) (d0 : Byte) (R : Bytes) : FieldRes → FieldRes → Prop
  | .next f rest, x => x = .next f (rest ++ d0 :: R)
  | .last f .eol, x => x = .next f (trimL c.trimL R)
  | _, _ => True

theorem dropWhile_append_all {set r R : Bytes} (h : r.dropWhile (· ∈ set) = []) :
    (r ++ R).dropWhile (· ∈ set) = R.dropWhile (· ∈ set) ∧ (r ++ R).takeWhile (· ∈ set) = r ++ R.takeWhile (· ∈ set) := by
  have : Only set r := by
    intro x hx
    induction r with
    | nil => cases hx
    | cons y r ih =>
      simp only [List.dropWhile_cons] at h
      split at h
      · rcases List.mem_cons.mp hx with rfl | hx
        · simp at *; assumption
        · exact ih h hx
      · cases h
  exact ⟨dropWhile_only_append this, takeWhile_only_append this⟩

theorem afterDelim_extend {w R : Bytes} (hw : [d0].isPrefixOf w = true) :
    afterDelim c [d0] (w ++ d0 :: R) = afterDelim c [d0] w ++ d0 :: R := by
  by_cases hne : afterDelim c [d0] w = []
  · obtain ⟨b, hb⟩ := List.isPrefixOf_iff_prefix.mp hw
    subst hb
    simp only [afterDelim, List.cons_append, List.nil_append, List.length_singleton, List.drop_succ_cons,
      List.drop_zero] at hne ⊢
    rw [(dropWhile_append_all hc hd hne).1, hne, dropWhile_head_not hd.trimL]; rfl
  · exact afterDelim_append hw hne

theorem field_extend (R : Bytes) (m : Mode) (acc r : Bytes) :
    Extends c d0 R (field c [d0] m acc r) (field c [d0] m acc (r ++ d0 :: R)) := by
  have hp1 : [d0].isPrefixOf (d0 :: R) = true := by simp
  have haf : afterDelim c [d0] (d0 :: R) = trimL c.trimL R := by simp [afterDelim, trimL]
  have hcl := good_clean hc hd
  fun_induction field c [d0] m acc r with
  | case1 acc r hr =>
    show _ = _
    rw [field_normal_eq, (dropWhile_append_all hc hd hr).1, dropWhile_head_not hd.trimR]
    simp only [hp1, if_true, haf]
  | case2 acc r x xs hr hp =>
    show _ = _
    rw [field_normal_eq, (dropWhile_append_cons hr).1]
    simp only [prefix_append _ hp, if_true]
    congr 1
    exact afterDelim_extend hc hd hp
  | case3 => trivial
  | case4 acc r ts x hx y ys _ hr hp ih =>
    obtain ⟨e1, e2⟩ := dropWhile_append_cons (r2 := d0 :: R) hr
    rw [field_normal_eq c [d0] acc (r ++ d0 :: R), e1, e2]
    have : [d0].isPrefixOf (x :: (y :: ys ++ d0 :: R)) = false := by
      rw [show x :: (y :: ys ++ d0 :: R) = (x :: y :: ys) ++ d0 :: R from rfl,
          isPrefixOf_append_of_le (by simp)]
      exact Bool.eq_false_iff.mpr hp
    simp only [this, Bool.false_eq_true, if_false, hx, if_true]
    exact ih
  | case5 acc r ts x xs hr hp hx ih =>
    obtain ⟨e1, e2⟩ := dropWhile_append_cons (r2 := d0 :: R) hr
    rw [field_normal_eq c [d0] acc (r ++ d0 :: R), e1, e2]
    have : [d0].isPrefixOf (x :: (xs ++ d0 :: R)) = false := by
      rw [show x :: (xs ++ d0 :: R) = (x :: xs) ++ d0 :: R from rfl,
          isPrefixOf_append_of_le (by simp)]
      exact Bool.eq_false_iff.mpr hp
    simp only [this, Bool.false_eq_true, if_false, hx]
    exact ih
  | case6 => trivial
  | case7 => trivial
  | case8 =>
    rename_i hq hx _ _ ih
    rw [List.cons_append, List.cons_append, step_esc hq hx]
    exact ih
  | case9 =>
    rename_i hq hx ih
    rw [List.cons_append, step_raw hq hx]
    exact ih
  | case10 acc x xs hq hz =>
    show _ = _
    rw [List.cons_append, field_quoted_eq]
    simp only [hq, if_false, (dropWhile_append_all hc hd hz).1, dropWhile_head_not hd.trimR, hp1, if_true, haf]
  | case11 acc x xs hq z zs hz hp =>
    show _ = _
    rw [List.cons_append, field_quoted_eq]
    simp only [hq, if_false, (dropWhile_append_cons hz).1, prefix_append _ hp, if_true]
    congr 1
    exact afterDelim_extend hc hd hp
  | case12 =>
    rename_i hz
    simp at hz
  | case13 =>
    rename_i hq _ ih
    have hxq := Classical.not_not.mp hq
    rw [List.cons_append, List.cons_append, step_dbl hc hxq (not_prefix_special hcl (.inl hxq))]
    exact ih
  | case14 =>
    rename_i hq _ _ _ _ ys _ hye _ ih
    have hxq := Classical.not_not.mp hq
    obtain ⟨h1, h2⟩ := hye
    cases ys with
    | nil => cases h2
    | cons y2 ys =>
      simp only [List.head?_cons, Option.some.injEq] at h2
      subst h2
      rw [List.cons_append, List.cons_append, List.cons_append, step_qesc hc hxq h1 (not_prefix_special hcl (.inr h1))]
      exact ih
  | case15 => trivial
  | case16 => trivial
  | case17 => trivial

theorem start_extend (rest R : Bytes) :
    start c (rest ++ d0 :: R) = ((start c rest).1, (start c rest).2 ++ d0 :: R) := by
  cases rest with
  | nil => simp [start, hd.quote]
  | cons x rest => simp only [List.cons_append, start]; split <;> rfl

theorem decode_extend (R : Bytes) : ∀ (n : Nat) (r : Bytes), r.length < n →
    ∀ (m : Mode) (acc : Bytes) (fs : List Bytes), decode c [d0] m acc r = (fs, .eol) →
    decode c [d0] m acc (r ++ d0 :: R) = (fs ++ (decodeRow c [d0] R).1, (decodeRow c [d0] R).2) := by
  intro n
  induction n with
  | zero => intro r h; omega
  | succ n ih =>
    intro r hn m acc fs h
    have hres := field_extend hc hd R m acc r
    cases hf : field c [d0] m acc r with
    | next f rest =>
      rw [decode_next (by simp) hf] at h
      rw [hf] at hres
      have hres : field c [d0] m acc (r ++ d0 :: R) = .next f (rest ++ d0 :: R) := hres
      have hrl := field_next_length c [d0] (by simp) m acc r f rest hf
      rw [decode_next (by simp) hres]
      simp only [Prod.mk.injEq] at h
      obtain ⟨h1, h2⟩ := h
      have hsl := start_length_le c rest
      have := ih (start c rest).2 (by omega) (start c rest).1 [] (decodeFields c [d0] rest).1
        (by rw [← h2]; rfl)
      rw [decodeFields, start_extend hc hd, this, ← h1]
      rfl
    | last f e =>
      rw [decode_last hf] at h
      simp only [Prod.mk.injEq] at h
      obtain ⟨rfl, rfl⟩ := h
      rw [hf] at hres
      have hres : field c [d0] m acc (r ++ d0 :: R) = .next f (trimL c.trimL R) := hres
      rw [decode_next (by simp) hres]
      rfl
    | stop e =>
      rw [decode_stop hf] at h
      simp only [Prod.mk.injEq] at h
      obtain ⟨rfl, rfl⟩ := h
      exfalso
      clear hres hn
      fun_induction field c [d0] m acc r <;> simp_all

/-- A complete row followed by a delimiter and more text. -/
theorem decodeRow_extend {p R : Bytes} {fs : List Bytes} (h : decodeRow c [d0] p = (fs, .eol)) :
    decodeRow c [d0] (p ++ d0 :: R) = (fs ++ (decodeRow c [d0] R).1, (decodeRow c [d0] R).2) := by
  have key : (p ++ d0 :: R).dropWhile (· ∈ c.trimL) = p.dropWhile (· ∈ c.trimL) ++ d0 :: R := by
    cases hp : p.dropWhile (· ∈ c.trimL) with
    | nil => rw [(dropWhile_append_all hc hd hp).1, dropWhile_head_not hd.trimL]; rfl
    | cons x xs => rw [(dropWhile_append_cons hp).1]; rfl
  rw [decodeRow, key, decodeFields, start_extend hc hd]
  exact decode_extend hc hd R _ _ (Nat.lt_succ_self _) _ _ _ h

end
end Ssp.Spec
