import Verif.Proofs.SplitCut
/-!
# Decoding a text in pieces
-/
namespace Ssp.Spec
open Ssp.Text

theorem field_next_long (c : Cfg) (d : Bytes) (m : Mode) (acc r f rest : Bytes)
    (h : field c d m acc r = .next f rest) : d.length ≤ r.length := by
  fun_induction field c d m acc r with
  | case1 => cases h
  | case2 acc r x xs hr hp =>
    have h1 := (List.isPrefixOf_iff_prefix.mp hp).length_le
    have := length_dropWhile_le (fun x => decide (x ∈ c.trimR)) r
    rw [hr] at this; omega
  | case3 => cases h
  | case4 acc r ts x _ hx y ys hr hp ih =>
    have := length_dropWhile_le (fun x => decide (x ∈ c.trimR)) r
    rw [hr] at this; simp at this
    have := ih h; omega
  | case5 acc r ts x xs hr hp hx ih =>
    have := length_dropWhile_le (fun x => decide (x ∈ c.trimR)) r
    rw [hr] at this; simp at this
    have := ih h; omega
  | case6 => cases h
  | case7 => cases h
  | case8 => rename_i ih; have := ih h; simp; omega
  | case9 => rename_i ih; have := ih h; simp; omega
  | case10 => cases h
  | case11 acc x xs hq z zs hz hp =>
    have h1 := (List.isPrefixOf_iff_prefix.mp hp).length_le
    have := length_dropWhile_le (fun x => decide (x ∈ c.trimR)) xs
    rw [hz] at this; simp at this h1 ⊢; omega
  | case12 => cases h
  | case13 => rename_i ih; have := ih h; simp; omega
  | case14 => rename_i ih; have := ih h; rename_i ys _ _ _; cases ys <;> simp at * <;> omega
  | case15 => cases h
  | case16 => cases h
  | case17 => cases h

theorem dropWhile_append_cons {p : Byte → Bool} {r r2 xs : Bytes} {x : Byte}
    (h : r.dropWhile p = x :: xs) :
    (r ++ r2).dropWhile p = x :: (xs ++ r2) ∧ (r ++ r2).takeWhile p = r.takeWhile p := by
  induction r with
  | nil => cases h
  | cons y r ih =>
    simp only [List.cons_append, List.dropWhile_cons, List.takeWhile_cons] at h ⊢
    split
    · rename_i hy
      simp only [hy, if_true] at h
      obtain ⟨h1, h2⟩ := ih h
      exact ⟨h1, by rw [h2]⟩
    · rename_i hy
      simp only [hy] at h
      cases h
      exact ⟨rfl, rfl⟩

theorem afterDelim_append {c : Cfg} {d w r2 : Bytes} (hw : d.isPrefixOf w = true)
    (hne : afterDelim c d w ≠ []) : afterDelim c d (w ++ r2) = afterDelim c d w ++ r2 := by
  have hl := (List.isPrefixOf_iff_prefix.mp hw).length_le
  unfold afterDelim at *
  rw [List.drop_append_of_le_length hl]
  generalize hu : List.dropWhile (fun x => decide (x ∈ c.trimL)) (List.drop (List.length d) w) = u at *
  cases u with
  | nil => exact absurd rfl hne
  | cons x xs => rw [(dropWhile_append_cons hu).1]; rfl

theorem prefix_append {d : Bytes} {x : Byte} {xs : Bytes} (r2 : Bytes)
    (hp : d.isPrefixOf (x :: xs) = true) : d.isPrefixOf (x :: (xs ++ r2)) = true := by
  obtain ⟨b, hb⟩ := List.isPrefixOf_iff_prefix.mp hp
  exact List.isPrefixOf_iff_prefix.mpr ⟨b ++ r2, by rw [← List.append_assoc, hb]; rfl⟩

theorem not_prefix_special {c : Cfg} {d : Bytes} (hdq : Clean c d) {z : Byte} {zs : Bytes}
    (h : c.quote = some z ∨ z ∈ c.escape) : d.isPrefixOf (z :: zs) = false := by
  cases d with
  | nil => exact absurd rfl hdq.1
  | cons d0 ds =>
    obtain ⟨h1, h2⟩ := hdq.2 d0 rfl
    apply not_prefix
    rintro rfl
    rcases h with h | h
    · exact h1 h
    · exact h2 h

theorem step_esc {c : Cfg} {d acc ys : Bytes} {x y : Byte} (hq : c.quote ≠ some x) (hx : x ∈ c.escape) :
    field c d .quoted acc (x :: y :: ys) = field c d .quoted (acc ++ [y]) ys := by
  rw [field_quoted_eq]; simp only [hq, hx, ne_eq, not_false_eq_true, if_true]

theorem step_raw {c : Cfg} {d acc xs : Bytes} {x : Byte} (hq : c.quote ≠ some x) (hx : x ∉ c.escape) :
    field c d .quoted acc (x :: xs) = field c d .quoted (acc ++ [x]) xs := by
  rw [field_quoted_eq]; simp only [hq, hx, ne_eq, not_false_eq_true, if_true, if_false]

theorem Joint.ne {c : Cfg} {d more : Bytes} (h : Joint c d more) : d ≠ [] := by
  rcases h with h | h
  · exact h.1
  · exact h.1

/-- no delimiter reaches over the place where a text may be cut -/
theorem Joint.not_prefix {c : Cfg} {d r2 : Bytes} (hj : Joint c d r2) {z : Byte} {zs : Bytes}
    (h : c.quote = some z ∨ z ∈ c.escape) (hp : ¬ d.isPrefixOf (z :: zs) = true) :
    d.isPrefixOf (z :: (zs ++ r2)) = false := by
  rcases hj with hj | ⟨_, hj⟩
  · exact not_prefix_special hj h
  · refine Bool.eq_false_iff.mpr fun hp2 => ?_
    by_cases hl : d.length ≤ (z :: zs).length
    · rw [show z :: (zs ++ r2) = (z :: zs) ++ r2 from rfl, isPrefixOf_append_of_le hl] at hp2
      exact hp hp2
    · obtain ⟨b, hb⟩ := List.isPrefixOf_iff_prefix.mp hp2
      cases r2 with
      | nil =>
        have := congrArg List.length hb
        simp at this hl
        omega
      | cons w ws =>
        refine hj w rfl ?_
        have h1 : (d ++ b)[(z :: zs).length]? = some w := by
          rw [hb, show z :: (zs ++ w :: ws) = (z :: zs) ++ w :: ws from rfl]
          simp
        rw [List.getElem?_append_left (by omega)] at h1
        exact List.mem_of_getElem? h1

theorem step_dbl {c : Cfg} (hc : c.WF) {d : Bytes} {acc ys : Bytes} {x : Byte}
    (hxq : c.quote = some x) (hd : d.isPrefixOf (x :: ys) = false) :
    field c d .quoted acc (x :: x :: ys) = field c d .quoted (acc ++ [x]) ys := by
  rw [field_quoted_eq]
  simp only [hxq, ne_eq, not_true_eq_false, if_false, dropWhile_head_not (hc.qr x hxq),
      hd, Bool.false_eq_true, if_true]

theorem step_qesc {c : Cfg} (hc : c.WF) {d : Bytes} {acc ys : Bytes} {x y : Byte}
    (hxq : c.quote = some x) (h1 : y ∈ c.escape) (hd : d.isPrefixOf (y :: x :: ys) = false) :
    field c d .quoted acc (x :: y :: x :: ys) = field c d .quoted (acc ++ [x]) ys := by
  have hyx : y ≠ x := fun h => hc.qe x hxq (h ▸ h1)
  rw [field_quoted_eq]
  simp only [hxq, ne_eq, not_true_eq_false, if_false, dropWhile_head_not (hc.er y h1),
        hd, Bool.false_eq_true, hyx, h1, List.head?_cons, and_self,
        if_true, List.tail_cons]

/-- What the result `x` of decoding a text says about the result of decoding the same text followed by
`r2`. -/
def Resumes (c : Cfg) (d r2 : Bytes) (x y : FieldRes) : Prop :=
  match x with
  | .next f rest => rest ≠ [] → y = .next f (rest ++ r2)
  | .stop (.openQuote a) => y = field c d .quoted a r2
  | _ => True

theorem field_resume {c : Cfg} (hc : c.WF) {d : Bytes} {r2 : Bytes} (hd : Joint c d r2) (m : Mode)
    (acc r : Bytes) : Resumes c d r2 (field c d m acc r) (field c d m acc (r ++ r2)) := by
  fun_induction field c d m acc r with
  | case1 => trivial
  | case2 acc r x xs hr hp =>
    intro hrest
    rw [field_normal_eq, (dropWhile_append_cons hr).1]
    simp only [prefix_append r2 hp, if_true]
    congr 1
    exact afterDelim_append hp hrest
  | case3 => trivial
  | case4 acc r ts x hxe y ys hr _ hp ih =>
    cases hf : field c d .normal (acc ++ (ts ++ [x, y]).tail) ys with
    | next f rest =>
      intro hrest
      have hl := field_next_long _ _ _ _ _ _ _ hf
      obtain ⟨e1, e2⟩ := dropWhile_append_cons (r2 := r2) hr
      rw [field_normal_eq, e1, e2]
      have : d.isPrefixOf (x :: (y :: (ys ++ r2))) = false := by
        rw [show x :: (y :: (ys ++ r2)) = (x :: y :: ys) ++ r2 from rfl,
          isPrefixOf_append_of_le (by simp; omega)]
        exact Bool.eq_false_iff.mpr hp
      simp only [this, Bool.false_eq_true, if_false, hxe, if_true, List.cons_append]
      rw [hf] at ih
      exact ih hrest
    | last f e => trivial
    | stop e => have := field_stop_quoted _ _ _ _ _ _ hf; cases this
  | case5 acc r ts x xs hr hp hx ih =>
    cases hf : field c d .normal (acc ++ ts ++ [x]) xs with
    | next f rest =>
      intro hrest
      have hl := field_next_long _ _ _ _ _ _ _ hf
      obtain ⟨e1, e2⟩ := dropWhile_append_cons (r2 := r2) hr
      rw [field_normal_eq, e1, e2]
      have : d.isPrefixOf (x :: (xs ++ r2)) = false := by
        rw [show x :: (xs ++ r2) = (x :: xs) ++ r2 from rfl,
          isPrefixOf_append_of_le (by simp; omega)]
        exact Bool.eq_false_iff.mpr hp
      simp only [this, Bool.false_eq_true, if_false, hx]
      rw [hf] at ih
      exact ih hrest
    | last f e => trivial
    | stop e => have := field_stop_quoted _ _ _ _ _ _ hf; cases this
  | case6 => rfl
  | case7 => trivial
  | case8 =>
    rename_i hq hx _ _ ih
    rw [List.cons_append, List.cons_append, step_esc hq hx]
    exact ih
  | case9 =>
    rename_i hq hx ih
    rw [List.cons_append, step_raw hq hx]
    exact ih
  | case10 => trivial
  | case11 acc x xs hq z zs hz hp =>
    intro hrest
    rw [List.cons_append, field_quoted_eq]
    simp only [hq, if_false, (dropWhile_append_cons hz).1, prefix_append r2 hp, if_true]
    congr 1
    exact afterDelim_append hp hrest
  | case12 => trivial
  | case13 =>
    rename_i hp _ _ hq hz ih
    have hxq := Classical.not_not.mp hq
    rw [dropWhile_head_not (hc.qr _ hxq)] at hz
    rw [← hz] at hp
    rw [List.cons_append, List.cons_append, step_dbl hc hxq (hd.not_prefix (.inl hxq) hp)]
    exact ih
  | case14 =>
    rename_i hq _ _ hp _ ys _ hye hz ih
    have hxq := Classical.not_not.mp hq
    obtain ⟨h1, h2⟩ := hye
    rw [dropWhile_head_not (hc.er _ h1)] at hz
    rw [← hz] at hp
    cases ys with
    | nil => cases h2
    | cons y2 ys =>
      simp only [List.head?_cons, Option.some.injEq] at h2
      subst h2
      have hnp := hd.not_prefix (zs := y2 :: ys) (.inr h1) hp
      rw [List.cons_append] at hnp
      rw [List.cons_append, List.cons_append, List.cons_append, step_qesc hc hxq h1 hnp]
      exact ih
  | case15 => trivial
  | case16 => trivial
  | case17 => trivial

/-- Decoding a text in two pieces. -/
theorem decode_resume {c : Cfg} (hc : c.WF) {d : Bytes} {r2 : Bytes} (hd : Joint c d r2) :
    ∀ (n : Nat) (r : Bytes), r.length < n → ∀ (m : Mode) (acc a : Bytes) (fs : List Bytes),
    decode c d m acc r = (fs, .openQuote a) →
    decode c d m acc (r ++ r2) =
      (fs ++ (decode c d .quoted a r2).1, (decode c d .quoted a r2).2) := by
  intro n
  induction n with
  | zero => intro r h; omega
  | succ n ih =>
    intro r hn m acc a fs h
    have hres := field_resume hc hd m acc r
    cases hf : field c d m acc r with
    | next f rest =>
      rw [decode_next hd.ne hf] at h
      rw [hf] at hres
      have hrl := field_next_length c d hd.ne m acc r f rest hf
      cases rest with
      | nil =>
        exfalso
        simp only [Prod.mk.injEq] at h
        have h2 := h.2
        simp only [decodeFields, start] at h2
        rw [decode_last (f := []) (e := .eol) (by rw [field_normal_eq]; rfl)] at h2
        cases h2
      | cons x rest =>
        have hres := hres (by simp)
        rw [decode_next hd.ne hres]
        simp only [Prod.mk.injEq] at h
        obtain ⟨h1, h2⟩ := h
        have hst : start c (x :: rest ++ r2) = ((start c (x :: rest)).1, (start c (x :: rest)).2 ++ r2) := by
          simp only [List.cons_append, start]; split <;> rfl
        have hsl := start_length_le c (x :: rest)
        have := ih (start c (x :: rest)).2 (by omega) (start c (x :: rest)).1 [] a
          (decodeFields c d (x :: rest)).1 (by rw [← h2]; rfl)
        rw [decodeFields, hst, this, ← h1]
        rfl
    | last f e =>
      rw [decode_last hf] at h
      have := field_last_end _ _ _ _ _ _ _ hf
      simp at h
      rcases this with rfl | rfl <;> simp at h
    | stop e =>
      rw [decode_stop hf] at h
      simp only [Prod.mk.injEq] at h
      obtain ⟨rfl, rfl⟩ := h
      rw [hf] at hres
      have hm := field_stop_quoted _ _ _ _ _ _ hf
      have hres : field c d m acc (r ++ r2) = field c d .quoted a r2 := hres
      have : decode c d m acc (r ++ r2) = decode c d .quoted a r2 := by
        rw [decode.eq_def, decode.eq_def c d .quoted a r2, hres]
      rw [this]; rfl

end Ssp.Spec
