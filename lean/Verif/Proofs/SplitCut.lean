import Verif.Proofs.SplitPure
/-!
# Lines without quoting and escaping
-/
namespace Ssp.Text

theorem Occurs.mono_left {d t : Bytes} (x : Bytes) (h : Occurs d t) : Occurs d (x ++ t) := by
  obtain ⟨a, b, h⟩ := h
  exact ⟨x ++ a, b, by simp [h]⟩

theorem Occurs.mono_right {d t : Bytes} (x : Bytes) (h : Occurs d t) : Occurs d (t ++ x) := by
  obtain ⟨a, b, h⟩ := h
  exact ⟨a, b ++ x, by simp [h]⟩

theorem Occurs.length_le {d t : Bytes} (h : Occurs d t) : d.length ≤ t.length := by
  obtain ⟨a, b, h⟩ := h
  simp [h]; omega

theorem Occurs.of_prefix {d t : Bytes} (h : d.isPrefixOf t = true) : Occurs d t := by
  obtain ⟨b, h⟩ := List.isPrefixOf_iff_prefix.mp h
  exact ⟨[], b, by simp [h]⟩

theorem Occurs.cons_inv {d t : Bytes} {x : Byte} (h : Occurs d (x :: t)) :
    d.isPrefixOf (x :: t) = true ∨ Occurs d t := by
  obtain ⟨a, b, h⟩ := h
  cases a with
  | nil => left; exact List.isPrefixOf_iff_prefix.mpr ⟨b, by simpa using h.symm⟩
  | cons y a =>
    right
    simp at h
    exact ⟨a, b, by simp [h.2]⟩

theorem isPrefixOf_append_of_le {d t r : Bytes} (h : d.length ≤ t.length) :
    d.isPrefixOf (t ++ r) = d.isPrefixOf t := by
  cases h1 : d.isPrefixOf t with
  | true =>
    obtain ⟨b, hb⟩ := List.isPrefixOf_iff_prefix.mp h1
    exact List.isPrefixOf_iff_prefix.mpr ⟨b ++ r, by simp [← hb]⟩
  | false =>
    cases h2 : d.isPrefixOf (t ++ r) with
    | false => rfl
    | true =>
      obtain ⟨b, hb⟩ := List.isPrefixOf_iff_prefix.mp h2
      have : d <+: t := by
        refine ⟨t.drop d.length, ?_⟩
        have : d = t.take d.length := by
          have := congrArg (List.take d.length) hb
          rw [List.take_left, List.take_append_of_le_length h] at this
          exact this
        conv => lhs; lhs; rw [this]
        exact List.take_append_drop _ _
      rw [List.isPrefixOf_iff_prefix.mpr this] at h1
      cases h1

theorem trimR_all {set l : Bytes} (h : Only set l) : trimR set l = [] := by
  rw [trimR, Spec.dropWhile_only (fun x hx => h x (by simpa using hx))]
  rfl

theorem trimR_keep {set ts f : Bytes} {x : Byte} (h : x ∉ set) :
    trimR set (ts ++ x :: f) = ts ++ x :: trimR set f := by
  unfold trimR
  rw [List.reverse_append, List.reverse_cons, List.append_assoc]
  generalize f.reverse = g
  induction g with
  | nil => simp [h]
  | cons y g ih =>
    simp only [List.cons_append, List.dropWhile_cons]
    split
    · exact ih
    · simp

@[simp] theorem trimR_nil_set (f : Bytes) : trimR [] f = f := by
  simp only [trimR, List.not_mem_nil, decide_false]
  cases h : f.reverse with
  | nil => simp at h; simp [h]
  | cons x g =>
    rw [List.dropWhile_cons]
    simp [← h]

@[simp] theorem trimL_nil_set (f : Bytes) : trimL [] f = f := by
  cases f <;> simp [trimL]

/-- every text can be cut -/
theorem cut_exists_step (d : Bytes) (hd : d ≠ []) (r : Bytes) :
    ¬ Occurs d r ∨ ∃ f R, r = f ++ d ++ R ∧ ¬ Occurs d (f ++ d.dropLast) := by
  have hlen : 0 < d.length := List.length_pos_iff.mpr hd
  induction r with
  | nil =>
    left
    intro h
    have := h.length_le
    simp at this
    exact hd this
  | cons x r ih =>
    cases hp : d.isPrefixOf (x :: r) with
    | true =>
      right
      obtain ⟨b, hb⟩ := List.isPrefixOf_iff_prefix.mp hp
      refine ⟨[], b, by simp [hb], ?_⟩
      intro h
      have := h.length_le
      simp at this
      omega
    | false =>
      rcases ih with h | ⟨f, R, h1, h2⟩
      · left
        intro h'
        rcases h'.cons_inv with h'' | h''
        · rw [hp] at h''; cases h''
        · exact h h''
      · right
        refine ⟨x :: f, R, by simp [h1], ?_⟩
        intro h'
        rcases Occurs.cons_inv h' with h'' | h''
        · have h3 : d.isPrefixOf ((x :: f ++ d.dropLast) ++ (d.getLast hd :: R)) = true := by
            obtain ⟨b, hb⟩ := List.isPrefixOf_iff_prefix.mp h''
            exact List.isPrefixOf_iff_prefix.mpr ⟨b ++ (d.getLast hd :: R), by
              rw [← List.append_assoc, hb]; rfl⟩
          have h4 : (x :: f ++ d.dropLast) ++ (d.getLast hd :: R) = x :: r := by
            rw [h1]
            have := List.dropLast_concat_getLast hd
            conv => rhs; rw [← this]
            simp
          rw [h4, hp] at h3
          cases h3
        · exact h2 h''

theorem cut_exists (d : Bytes) (hd : d ≠ []) : ∀ (n : Nat) (r : Bytes), r.length < n → ∃ fs, Cut d r fs := by
  intro n
  induction n with
  | zero => intro r h; omega
  | succ n ih =>
    intro r hn
    rcases cut_exists_step d hd r with h | ⟨f, R, h1, h2⟩
    · exact ⟨_, .last h⟩
    · have hlen : 0 < d.length := List.length_pos_iff.mpr hd
      obtain ⟨fs, hfs⟩ := ih R (by rw [h1] at hn; simp at hn; omega)
      exact ⟨f :: fs, by rw [h1]; exact .cons h2 hfs⟩

theorem Cut.ne_nil {d r : Bytes} {fs : List Bytes} (h : Cut d r fs) : fs ≠ [] := by
  cases h <;> simp

theorem Cut.join {d r : Bytes} {fs : List Bytes} (h : Cut d r fs) : Text.join d fs = r := by
  induction h with
  | last => rfl
  | @cons f r fs h1 h2 ih =>
    cases fs with
    | nil => exact absurd rfl h2.ne_nil
    | cons g gs => rw [Text.join, ih]; simp

theorem Cut.no_delim {d r : Bytes} {fs : List Bytes} (h : Cut d r fs) : ∀ f ∈ fs, ¬ Occurs d f := by
  induction h with
  | last h => intro f hf; simp at hf; exact hf ▸ h
  | @cons f r fs h1 _ ih =>
    intro g hg
    rcases List.mem_cons.mp hg with rfl | hg
    · exact fun h => h1 (h.mono_right _)
    · exact ih g hg

theorem Cut.of_join {d : Bytes} : ∀ {fs : List Bytes}, fs ≠ [] →
    (∀ f ∈ fs, ¬ Occurs d (f ++ d.dropLast)) → Cut d (Text.join d fs) fs
  | [], h, _ => absurd rfl h
  | [f], _, h => .last (fun h' => h f (by simp) (h'.mono_right _))
  | f :: g :: fs, _, h => .cons (h f (by simp)) (Cut.of_join (by simp) (fun x hx => h x (by simp [hx])))

end Ssp.Text

namespace Ssp.Spec
open Ssp.Text

section
variable {c : Cfg} (hq : c.quote = none) (he : c.escape = []) {d0 : Byte} {ds : Bytes}
  (hl : d0 ∉ c.trimL) (hr : d0 ∉ c.trimR)

/-- spacing followed by something else -/
theorem span_cases (set f : Bytes) : Only set f ∨ ∃ ts x g, f = ts ++ x :: g ∧ Only set ts ∧ x ∉ set := by
  induction f with
  | nil => left; intro x hx; cases hx
  | cons y f ih =>
    by_cases hy : y ∈ set
    · rcases ih with h | ⟨ts, x, g, h1, h2, h3⟩
      · left; intro z hz
        rcases List.mem_cons.mp hz with rfl | hz
        · exact hy
        · exact h z hz
      · right
        refine ⟨y :: ts, x, g, by simp [h1], ?_, h3⟩
        intro z hz
        rcases List.mem_cons.mp hz with rfl | hz
        · exact hy
        · exact h2 z hz
    · right; exact ⟨[], y, f, rfl, fun _ h => (by cases h), hy⟩

include he hr

theorem field_cut_next : ∀ (n : Nat) (f : Bytes), f.length < n → ∀ (acc R : Bytes),
    ¬ Occurs (d0 :: ds) (f ++ (d0 :: ds).dropLast) →
    field c (d0 :: ds) .normal acc (f ++ (d0 :: ds) ++ R) =
      .next (acc ++ trimR c.trimR f) (trimL c.trimL R) := by
  intro n
  induction n with
  | zero => intro f h; omega
  | succ n ih =>
    intro f hn acc R ho
    rw [field_normal_eq]
    rcases span_cases c.trimR f with h | ⟨ts, x, g, h1, h2, h3⟩
    · have hp : (d0 :: ds).isPrefixOf (d0 :: (ds ++ R)) = true :=
        List.isPrefixOf_iff_prefix.mpr ⟨R, by simp⟩
      simp only [List.append_assoc, dropWhile_only_append h, List.cons_append,
        dropWhile_head_not hr, hp, if_true, trimR_all h]
      simp [afterDelim, trimL]
    · subst h1
      have hnp : (d0 :: ds).isPrefixOf (x :: (g ++ d0 :: (ds ++ R))) = false := by
        have hdl : (d0 :: ds).dropLast ++ (d0 :: ds).getLast (by simp) :: R = d0 :: (ds ++ R) := by
          have := List.dropLast_concat_getLast (l := d0 :: ds) (by simp)
          rw [show d0 :: (ds ++ R) = (d0 :: ds) ++ R from rfl]
          conv => rhs; rw [← this]
          simp
        have hle : (d0 :: ds).length ≤ (x :: g ++ (d0 :: ds).dropLast).length := by simp
        have := isPrefixOf_append_of_le (r := (d0 :: ds).getLast (by simp) :: R) hle
        rw [List.append_assoc, hdl] at this
        rw [show x :: (g ++ d0 :: (ds ++ R)) = x :: g ++ d0 :: (ds ++ R) from rfl, this]
        cases hh : (d0 :: ds).isPrefixOf (x :: g ++ (d0 :: ds).dropLast) with
        | false => rfl
        | true =>
          exact absurd ((Occurs.of_prefix hh).mono_left ts) (by simpa using ho)
      have := ih g (by simp at hn; omega) (acc ++ ts ++ [x]) R
        (fun h => ho (by
          have := h.mono_left (ts ++ [x])
          simpa using this))
      simp only [List.append_assoc, List.cons_append, dropWhile_only_append h2,
        takeWhile_only_append h2, dropWhile_head_not h3, takeWhile_head_not h3, hnp,
        Bool.false_eq_true, if_false, he, List.not_mem_nil, List.append_nil, trimR_keep h3] at this ⊢
      rw [this]
      simp

omit hr in
theorem field_cut_last : ∀ (n : Nat) (f : Bytes), f.length < n → ∀ (acc : Bytes),
    ¬ Occurs (d0 :: ds) f →
    field c (d0 :: ds) .normal acc f = .last (acc ++ trimR c.trimR f) .eol := by
  intro n
  induction n with
  | zero => intro f h; omega
  | succ n ih =>
    intro f hn acc ho
    rw [field_normal_eq]
    rcases span_cases c.trimR f with h | ⟨ts, x, g, h1, h2, h3⟩
    · rw [dropWhile_only h, trimR_all h]; simp
    · subst h1
      have hnp : (d0 :: ds).isPrefixOf (x :: g) = false := by
        cases hh : (d0 :: ds).isPrefixOf (x :: g) with
        | false => rfl
        | true => exact absurd ((Occurs.of_prefix hh).mono_left ts) ho
      have := ih g (by simp at hn; omega) (acc ++ ts ++ [x])
        (fun h => ho (by have := h.mono_left (ts ++ [x]); simpa using this))
      simp only [List.append_assoc, dropWhile_only_append h2,
        takeWhile_only_append h2, dropWhile_head_not h3, takeWhile_head_not h3, hnp,
        Bool.false_eq_true, if_false, he, List.not_mem_nil, List.append_nil, trimR_keep h3] at this ⊢
      rw [this]
      simp

include hq hl

omit hq he hr in
theorem trimL_delim (f R : Bytes) :
    trimL c.trimL (f ++ (d0 :: ds) ++ R) = trimL c.trimL f ++ (d0 :: ds) ++ R := by
  unfold trimL
  rcases span_cases c.trimL f with h | ⟨ts, x, g, h1, h2, h3⟩
  · rw [dropWhile_only h, List.append_assoc, dropWhile_only_append h]
    exact dropWhile_head_not hl
  · subst h1
    rw [dropWhile_only_append h2, dropWhile_head_not h3]
    rw [List.append_assoc, List.append_assoc, dropWhile_only_append h2]
    simp only [List.cons_append]
    rw [dropWhile_head_not h3]
    simp

omit hq he hl hr in
theorem trimL_suffix (set f : Bytes) : ∃ p, f = p ++ trimL set f :=
  ⟨f.takeWhile (· ∈ set), (List.takeWhile_append_dropWhile).symm⟩

/-- Without quoting and escaping the fields are the trimmed pieces of the cut. -/
theorem decodeRow_cut {r : Bytes} {fs : List Bytes} (h : Cut (d0 :: ds) r fs) :
    decodeRow c (d0 :: ds) r = (fs.map (fun f => trimR c.trimR (trimL c.trimL f)), .eol) := by
  have hst : ∀ r, start c r = (.normal, r) := by intro r; cases r <;> simp [start, hq]
  induction h with
  | @last f ho =>
    have ho' : ¬ Occurs (d0 :: ds) (trimL c.trimL f) := by
      obtain ⟨p, hp⟩ := trimL_suffix c.trimL f
      intro h; apply ho; rw [hp]; exact h.mono_left p
    rw [decodeRow, decodeFields, hst]
    exact decode_last (field_cut_last he _ _ (Nat.lt_succ_self _) [] ho')
  | @cons f r fs ho _ ih =>
    have ho' : ¬ Occurs (d0 :: ds) (trimL c.trimL f ++ (d0 :: ds).dropLast) := by
      obtain ⟨p, hp⟩ := trimL_suffix c.trimL f
      intro h; apply ho
      have := h.mono_left p
      rwa [← List.append_assoc, ← hp] at this
    rw [decodeRow, decodeFields, hst]
    have e := trimL_delim hl (ds := ds) f r
    unfold trimL at e
    rw [e]
    show decode c (d0 :: ds) .normal [] (trimL c.trimL f ++ d0 :: ds ++ r) = _
    rw [decode_next (by simp) (field_cut_next he hr _ _ (Nat.lt_succ_self _) [] r ho')]
    have : decodeFields c (d0 :: ds) (trimL c.trimL r) = decodeRow c (d0 :: ds) r := rfl
    rw [this, ih]
    simp [trimL]

end
end Ssp.Spec
