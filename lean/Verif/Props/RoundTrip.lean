import Verif.Props.ParserSame
import Verif.Props.ParserEmpty
import Verif.Spec.Table
/-!
# Reading back a written table (C55)
-/
namespace Ssp
open Spec Text

variable {c : Cfg} {delim : Bytes} {q e : Byte}

/-- the text between the quotes -/
def inner (c : Cfg) (q e : Byte) (f : Bytes) : Bytes :=
  f.flatMap (fun x => if x = q then [q, q] else if x ∈ c.escape then [e, x] else [x])

theorem quoteField_eq (f : Bytes) : quoteField c q e f = q :: (inner c q e f ++ [q]) := rfl

theorem written_field (hc : c.WF) {d0 : Byte} {ds : Bytes} (ha : Agreed c (d0 :: ds) q e) {f t : Bytes}
    (h : Written c (d0 :: ds) q e f t) : Field c d0 f t := by
  cases h with
  | quoted =>
    have := Field.quoted (c := c) (d0 := d0) (l := []) (r := []) ha.quote (by intro x hx; cases hx)
      (quoted_flatMap (hc.qe q ha.quote) ha.escape f) (by intro x hx; cases hx)
    simpa [quoteField] using this
  | bare hb =>
    have hp : ∀ {f : Bytes}, (∀ x ∈ f, special c (d0 :: ds) x = false ∧ x ≠ 13 ∧ x ≠ 10) → Text.Plain c d0 f f := by
      intro f
      induction f with
      | nil => intro _; exact .nil
      | cons x f ih =>
        intro h
        obtain ⟨hx, _⟩ := h x (by simp)
        simp [special] at hx
        have := Text.Plain.raw (c := c) (d0 := d0) (sp := []) (x := x) (by intro y hy; cases hy) hx.2 hx.1.1.2
          hx.1.1.1.1.1 (ih fun y hy => h y (by simp [hy]))
        simpa using this
    have := Field.plain (c := c) (d0 := d0) (l := []) (r := []) (by intro x hx; cases hx) (hp hb) (by intro x hx; cases hx) (by
      intro x hx
      rw [List.append_nil] at hx
      obtain ⟨h1, _⟩ := hb x (List.mem_of_head? hx)
      simp [special] at h1
      exact ⟨fun h => h1.1.1.1.2 h, h1.1.2⟩)
    simpa using this

theorem written_fields (hc : c.WF) {d0 : Byte} {ds : Bytes} (ha : Agreed c (d0 :: ds) q e) :
    ∀ {fs ts : List Bytes}, WrittenFields c (d0 :: ds) q e fs ts → Fields c d0 fs ts
  | [], [], _ => trivial
  | _ :: _, _ :: _, h => ⟨written_field hc ha h.1, written_fields hc ha h.2⟩
  | [], _ :: _, h => h.elim
  | _ :: _, [], h => h.elim

/-- a cut of the quoted text in front of a line terminator is the text of a shorter field -/
theorem inner_cut (ha : Agreed c delim q e) (hqe : q ∉ c.escape) {b : Byte} (hb : b = CR ∨ b = LF) :
    ∀ {f u : Bytes}, (u ++ [b]) <+: inner c q e f → ∃ f', Quoted c q f' u := by
  have hbq : b ≠ q := by rintro rfl; rcases hb with h | h; exact ha.quote_eol.1 h; exact ha.quote_eol.2 h
  have hbe : b ∉ c.escape := by rcases hb with rfl | rfl; exact ha.escape_eol.1; exact ha.escape_eol.2
  intro f
  induction f with
  | nil => intro u h; simp [inner] at h
  | cons x f ih =>
    intro u h
    have hi : inner c q e (x :: f) = (if x = q then [q, q] else if x ∈ c.escape then [e, x] else [x]) ++ inner c q e f := by
      simp [inner]
    rw [hi] at h
    cases u with
    | nil => exact ⟨[], .nil⟩
    | cons y u =>
      by_cases h1 : x = q
      · rw [if_pos h1] at h
        simp only [List.cons_append, List.cons_prefix_cons, List.nil_append] at h
        obtain ⟨rfl, h⟩ := h
        cases u with
        | nil => simp only [List.nil_append, List.cons_prefix_cons] at h; exact absurd h.1 hbq
        | cons z u =>
          simp only [List.cons_append, List.cons_prefix_cons] at h
          obtain ⟨rfl, h⟩ := h
          obtain ⟨f', hf⟩ := ih h
          exact ⟨_, .dbl hf⟩
      · rw [if_neg h1] at h
        by_cases h2 : x ∈ c.escape
        · rw [if_pos h2] at h
          simp only [List.cons_append, List.cons_prefix_cons, List.nil_append] at h
          obtain ⟨rfl, h⟩ := h
          cases u with
          | nil => simp only [List.nil_append, List.cons_prefix_cons] at h; exact absurd (h.1 ▸ h2) hbe
          | cons z u =>
            simp only [List.cons_append, List.cons_prefix_cons] at h
            obtain ⟨rfl, h⟩ := h
            obtain ⟨f', hf⟩ := ih h
            exact ⟨_, .esc (ha.escape (List.ne_nil_of_mem h2)) hf⟩
        · rw [if_neg h2] at h
          simp only [List.cons_append, List.cons_prefix_cons, List.nil_append] at h
          obtain ⟨rfl, h⟩ := h
          obtain ⟨f', hf⟩ := ih h
          exact ⟨_, .raw h1 h2 hf⟩

/-- a prefix of `t ++ v` which ends behind `t` -/
theorem prefix_cases {p t v : Bytes} (h : p <+: t ++ v) : p <+: t ∨ ∃ r, r ≠ [] ∧ p = t ++ r ∧ r <+: v := by
  by_cases hl : p.length ≤ t.length
  · exact .inl (List.prefix_of_prefix_length_le h (List.prefix_append t v) hl)
  · obtain ⟨r, hr⟩ : t <+: p := List.prefix_of_prefix_length_le (List.prefix_append t v) h (by omega)
    refine .inr ⟨r, ?_, hr.symm, ?_⟩
    · rintro rfl; simp at hr; subst hr; omega
    · rw [← hr] at h
      exact (List.prefix_append_right_inj t).mp h

theorem last_of {u a r : Bytes} {b : Byte} (h : u ++ [b] = a ++ r) (h0 : r ≠ []) : ∃ v, r = v ++ [b] ∧ u = a ++ v := by
  rcases List.eq_nil_or_concat r with rfl | ⟨v, y, rfl⟩
  · exact absurd rfl h0
  · rw [List.concat_eq_append] at h ⊢
    rw [← List.append_assoc] at h
    obtain ⟨h1, h2⟩ := List.append_inj' h rfl
    cases h2
    exact ⟨v, rfl, h1⟩

/-- A line terminator in a written row is inside a quoted field. -/
theorem written_inQuote (hc : c.WF) (ha : Agreed c delim q e) {b : Byte} (hb : b = CR ∨ b = LF) :
    ∀ {fs ts : List Bytes} {u : Bytes}, WrittenFields c delim q e fs ts → (u ++ [b]) <+: join delim ts → c.InQuote delim u := by
  obtain ⟨d0, ds, rfl, hd⟩ := ha.good
  have hqd : q ≠ d0 := fun h => hd.quote (h ▸ ha.quote)
  have hbq : b ≠ q := by rintro rfl; rcases hb with h | h; exact ha.quote_eol.1 h; exact ha.quote_eol.2 h
  have hbd : b ∉ d0 :: ds := fun h => by rcases hb with rfl | rfl; exact (ha.tail _ h).2.1 rfl; exact (ha.tail _ h).2.2 rfl
  -- in the first field
  have first : ∀ {f t u : Bytes}, Written c (d0 :: ds) q e f t → (u ++ [b]) <+: t → c.InQuote (d0 :: ds) u := by
    intro f t u hw hp
    cases hw with
    | bare h =>
      have : b ∈ f := hp.subset (by simp)
      obtain ⟨_, h1, h2⟩ := h b this
      rcases hb with hb | hb
      · exact absurd hb h1
      · exact absurd hb h2
    | quoted =>
      rw [quoteField_eq] at hp
      cases u with
      | nil => simp only [List.nil_append, List.cons_prefix_cons] at hp; exact absurd hp.1 hbq
      | cons y u =>
        simp only [List.cons_append, List.cons_prefix_cons] at hp
        obtain ⟨rfl, hp⟩ := hp
        have hp' : (u ++ [b]) <+: inner c y e f := by
          rcases prefix_cases hp with h | ⟨r, h0, h1, h2⟩
          · exact h
          · have : r = [y] := by
              cases r with
              | nil => exact absurd rfl h0
              | cons z r =>
                simp only [List.cons_prefix_cons, List.prefix_nil] at h2
                rw [h2.1, h2.2]
            rw [this] at h1
            have := congrArg List.getLast? h1
            simp at this
            exact absurd this hbq
        obtain ⟨f', hf⟩ := inner_cut ha (hc.qe _ ha.quote) hb hp'
        refine ⟨f', ?_⟩
        have : decodeRow c (d0 :: ds) ([] ++ y :: u) = ([], .openQuote f') := by
          rw [decodeRow_quoted hc ha.quote (by intro x hx; cases hx)]
          have := field_quoted_body (ds := ds) hc ha.quote hqd hf [] []
          simp only [List.append_nil, List.nil_append] at this
          exact decode_stop (by rw [this, field_quoted_eq])
        rw [List.nil_append] at this
        rw [this]
  intro fs
  induction fs with
  | nil =>
    intro ts u h hp
    cases ts with
    | nil => simp [join] at hp
    | cons _ _ => exact h.elim
  | cons f fs ih =>
    intro ts u h hp
    cases ts with
    | nil => exact h.elim
    | cons t ts =>
      cases ts with
      | nil => exact first h.1 hp
      | cons t2 ts =>
        have hj : join (d0 :: ds) (t :: t2 :: ts) = t ++ ((d0 :: ds) ++ join (d0 :: ds) (t2 :: ts)) := by simp [join]
        rw [hj] at hp
        rcases prefix_cases hp with hp | ⟨r, h0, h1, h2⟩
        · exact first h.1 hp
        · rcases prefix_cases h2 with h3 | ⟨r', h4, h5, h6⟩
          · -- inside the delimiter
            obtain ⟨v, rfl, _⟩ := last_of h1 h0
            have : b ∈ v ++ [b] := by simp
            exact absurd (h3.subset this) hbd
          · -- in the rest
            rw [h5, ← List.append_assoc] at h1
            obtain ⟨v, rfl, hu⟩ := last_of h1 h4
            obtain ⟨a, haa⟩ := ih h.2 h6
            refine ⟨a, ?_⟩
            rw [hu, decodeRow_field hc hd (written_field hc ha h.1)]
            exact haa

theorem written_one_last (hc : c.WF) (ha : Agreed c delim q e) {f t : Bytes} (h : Written c delim q e f t) {b : Byte}
    (hb : t.getLast? = some b) : b ∉ c.escape ∧ b ≠ CR ∧ b ≠ LF := by
  cases h with
  | quoted =>
    rw [quoteField_eq, ← List.cons_append, List.getLast?_concat] at hb
    cases hb
    exact ⟨hc.qe _ ha.quote, ha.quote_eol⟩
  | bare hf =>
    obtain ⟨h1, h2⟩ := hf b (List.mem_of_getLast? hb)
    simp [special] at h1
    exact ⟨h1.1.1.2, h2⟩

theorem written_last (hc : c.WF) (ha : Agreed c delim q e) : ∀ {fs ts : List Bytes}, WrittenFields c delim q e fs ts →
    ∀ {b : Byte}, (join delim ts).getLast? = some b → b ∉ c.escape ∧ b ≠ CR ∧ b ≠ LF
  | [], [], _, b, hb => by simp [join] at hb
  | [f], [t], h, b, hb => written_one_last hc ha h.1 hb
  | _ :: f' :: fs, t :: t' :: ts, h, b, hb => by
    have hj : join delim (t :: t' :: ts) = (t ++ delim) ++ join delim (t' :: ts) := by simp [join]
    rw [hj, List.getLast?_append] at hb
    cases hr : (join delim (t' :: ts)).getLast? with
    | some y =>
      rw [hr] at hb; cases hb
      exact written_last hc ha (fs := f' :: fs) h.2 hr
    | none =>
      rw [hr, Option.none_or, List.getLast?_append] at hb
      have : delim.getLast? = some b := by
        cases hd : delim.getLast? with
        | some y => rw [hd] at hb; cases hb; rfl
        | none =>
          obtain ⟨d0, ds, rfl, _⟩ := ha.good
          simp at hd
      have := ha.tail b (List.mem_of_getLast? this)
      exact this
  | [], _ :: _, h, _, _ => h.elim
  | _ :: _, [], h, _, _ => h.elim
  | [_], _ :: _ :: _, h, _, _ => h.2.elim
  | _ :: _ :: _, [_], h, _, _ => h.2.elim

theorem rawLines_append {b : Bytes} : ∀ {a : Bytes}, a = [] ∨ a.getLast? = some LF → rawLines (a ++ b) = rawLines a ++ rawLines b
  | [], _ => rfl
  | x :: a, h => by
    have h' : a = [] ∨ a.getLast? = some LF := by
      cases a with
      | nil => exact .inl rfl
      | cons y a => simpa using h
    have ih := rawLines_append (b := b) h'
    rw [List.cons_append, rawLines, rawLines]
    by_cases hx : x = LF
    · rw [if_pos hx, if_pos hx, ih]; rfl
    · rw [if_neg hx, if_neg hx, ih]
      have : rawLines a ≠ [] := by
        intro e
        have := rawLines_flatten a
        rw [e] at this
        subst this
        simp at h
        exact hx h
      cases hr : rawLines a with
      | nil => exact absurd hr this
      | cons l ls => rfl

theorem RawList.cut {ls : List Bytes} (h : RawList ls) {i : Nat} (hi : i + 1 < ls.length) :
    ∃ p, (ls.take (i + 1)).flatten = p ++ [LF] := by
  induction h generalizing i with
  | nil => simp at hi
  | last _ _ => simp at hi
  | @cons l ls h1 h2 ih =>
    cases i with
    | zero => exact ⟨l, by simp⟩
    | succ i =>
      obtain ⟨p, hp⟩ := ih (i := i) (by simpa using hi)
      exact ⟨l ++ [LF] ++ p, by rw [List.take_succ_cons, List.flatten_cons, hp]; simp⟩

/-- the terminator of a line -/
def eolText (b : Bool) : Bytes := if b then [CR, LF] else [LF]

theorem terminated_cons (t : Bytes) (b : Bool) (ls : List (Bytes × Bool)) :
    terminated ((t, b) :: ls) = (t ++ eolText b) ++ terminated ls := by
  simp [terminated, eolText]

theorem chop_eolText {t : Bytes} (h : t.getLast? ≠ some CR) (b : Bool) : chop (t ++ eolText b) = t := by
  cases b with
  | false => exact chop_lf h
  | true => exact chop_crlf t

/-- a line terminator in front of the end of a text is inside the text -/
theorem cut_inside {t p r : Bytes} {b : Bool} (h : p ++ [LF] ++ r = t ++ eolText b) (hr : r ≠ []) : (p ++ [LF]) <+: t := by
  have h1 : (p ++ [LF]) <+: t ++ eolText b := ⟨r, h⟩
  have hlen := congrArg List.length h
  have hr' : r.length ≠ 0 := by simpa using hr
  cases b with
  | false =>
    refine List.prefix_of_prefix_length_le h1 (List.prefix_append _ _) ?_
    simp [eolText] at hlen ⊢; omega
  | true =>
    by_cases h2 : r.length = 1
    · have : p ++ [LF] ++ r = (t ++ [CR]) ++ [LF] := by rw [h]; simp [eolText]
      obtain ⟨h3, _⟩ := List.append_inj' this (by simp [h2])
      obtain ⟨_, h4⟩ := List.append_inj' h3 rfl
      simp at h4
      exact absurd h4 (by decide)
    · refine List.prefix_of_prefix_length_le h1 (List.prefix_append _ _) ?_
      simp [eolText] at hlen ⊢; omega

theorem not_escaped {c : Cfg} {t : Bytes} (h : ∀ b, t.getLast? = some b → b ∉ c.escape) : ¬ c.Escaped t := by
  unfold Cfg.Escaped
  rcases List.eq_nil_or_concat t with rfl | ⟨v, y, rfl⟩
  · simp
  · have := h y (by simp)
    simp [this]

/-- a text that ends with a line feed has as many lines as line feeds -/
theorem RawList.count {ls : List Bytes} (h : RawList ls) (hl : ls.flatten.getLast? = some LF) : ls.length = ls.flatten.count LF := by
  induction h with
  | nil => simp at hl
  | last h1 h2 => 
    exfalso
    exact h2 (List.mem_of_getLast? (by simpa using hl))
  | @cons l ls h1 h2 ih =>
    simp only [List.flatten_cons, List.length_cons, List.count_append, List.count_cons_self, List.count_nil, List.count_eq_zero.mpr h1]
    by_cases hls : ls.flatten = []
    · have : ls = [] := by
        cases h2 with
        | nil => rfl
        | last a _ => simp at hls; exact absurd hls a
        | cons _ _ => simp at hls
      simp [this]
    · rw [ih]
      · omega
      · rw [List.flatten_cons, List.getLast?_append] at hl
        cases hg : ls.flatten.getLast? with
        | none => exact absurd (List.getLast?_eq_none_iff.mp hg) hls
        | some y => rw [hg] at hl; simpa using hl

/-- The lines of a written row: each of them but the last goes on. -/
theorem written_goesOn {x : Ctx} (hnul : NUL ∉ x.src.data) (hc : x.cfg.WF) (ha : Agreed x.cfg x.delim q e) {fs : List Bytes} {t : Bytes}
    (ht : WrittenRow x.cfg x.delim q e fs t) {pre post : List Bytes} {b : Bool}
    (hraw : rawLines x.src.data = pre ++ (rawLines (t ++ eolText b) ++ post)) :
    pre.length + t.count LF < (lines x.src.data).length ∧ ¬ x.GoesOn (x.joined pre.length (t.count LF)) ∧
      (∀ i, i < t.count LF → x.GoesOn (x.joined pre.length i)) ∧
      (rawLines (t ++ eolText b)).length = t.count LF + 1 ∧ x.joined pre.length (t.count LF) = t := by
  obtain ⟨ts, hts, rfl, hne⟩ := ht
  have hpos : (rawLines (join x.delim ts ++ eolText b)).length ≠ 0 := by
    intro h
    have := rawLines_flatten (join x.delim ts ++ eolText b)
    rw [List.length_eq_zero_iff.mp h] at this
    have := congrArg List.length this
    cases b <;> simp [eolText] at this
  obtain ⟨k, hk⟩ : ∃ k, (rawLines (join x.delim ts ++ eolText b)).length = k + 1 :=
    ⟨_, (Nat.succ_pred_eq_of_ne_zero hpos).symm⟩
  have hj : ∀ i, i ≤ k → x.joined pre.length i = chop ((rawLines (join x.delim ts ++ eolText b)).take (i + 1)).flatten := by
    intro i hi
    unfold Ctx.joined
    rw [hraw, List.drop_left, List.take_append_of_le_length (by omega)]
  have hlast : x.joined pre.length k = join x.delim ts := by
    rw [hj k (Nat.le_refl _), List.take_of_length_le (by omega), rawLines_flatten]
    refine chop_eolText ?_ b
    intro h
    exact (written_last hc ha hts h).2.1 rfl
  have hcnt : k = (join x.delim ts).count LF := by
    have hl : (join x.delim ts ++ eolText b).getLast? = some LF := by cases b <;> simp [eolText]
    have := (rawLines_rawList (join x.delim ts ++ eolText b)).count (by rw [rawLines_flatten]; exact hl)
    rw [hk, rawLines_flatten, List.count_append] at this
    have he : (eolText b).count LF = 1 := by cases b <;> decide
    omega
  rw [← hcnt]
  refine ⟨?_, ?_, ?_, hk, hlast⟩
  · rw [lines_length, hraw]; simp only [List.length_append, hk]; omega
  · unfold Ctx.GoesOn
    rw [cutNul_of_not_mem (joined_nul hnul), hlast]
    rintro (h | ⟨a, h⟩)
    · exact not_escaped (fun b hb => (written_last hc ha hts hb).1) h
    · obtain ⟨d0, ds, hd, hg⟩ := ha.good
      have hfs : fs ≠ [] := by
        rintro rfl
        cases ts with
        | nil => exact hne rfl
        | cons _ _ => exact hts.elim
      rw [hd] at h hts ha
      rw [decodeRow_join hc hg hfs (written_fields hc ha hts)] at h
      cases h
  · intro i hi
    refine .inr ?_
    rw [cutNul_of_not_mem (joined_nul hnul), hj i (by omega)]
    have hR := rawLines_rawList (join x.delim ts ++ eolText b)
    obtain ⟨p, hp⟩ := hR.cut (i := i) (by omega)
    have hsplit : p ++ [LF] ++ ((rawLines (join x.delim ts ++ eolText b)).drop (i + 1)).flatten = join x.delim ts ++ eolText b := by
      rw [← hp, ← List.flatten_append, List.take_append_drop, rawLines_flatten]
    have hrest : ((rawLines (join x.delim ts ++ eolText b)).drop (i + 1)).flatten ≠ [] := by
      intro h
      have hlt : i + 1 < (rawLines (join x.delim ts ++ eolText b)).length := by omega
      rw [List.drop_eq_getElem_cons hlt, List.flatten_cons] at h
      exact rawLines_ne_nil (List.getElem_mem hlt) (List.append_eq_nil_iff.mp h).1
    have hpre := cut_inside hsplit hrest
    rw [hp]
    rcases List.eq_nil_or_concat p with rfl | ⟨v, y, rfl⟩
    · rw [chop_lf (by simp)]; exact written_inQuote hc ha (.inr rfl) hts hpre
    · rw [List.concat_eq_append] at hpre ⊢
      by_cases hy : y = CR
      · subst hy
        rw [List.append_assoc]
        rw [show chop (v ++ ([CR] ++ [LF])) = v from chop_crlf v]
        refine written_inQuote hc ha (b := CR) (.inl rfl) hts ?_
        exact List.IsPrefix.trans (List.prefix_append _ _) hpre
      · rw [chop_lf (by simpa using hy)]
        exact written_inQuote hc ha (.inr rfl) hts hpre

/-- The lines of a written row are one row. -/
theorem written_rowTo {x : Ctx} (hnul : NUL ∉ x.src.data) (hc : x.cfg.WF) (ha : Agreed x.cfg x.delim q e) {fs : List Bytes} {t : Bytes}
    (hlim : 0 < x.cfg.mlLimit → t.count LF ≤ x.cfg.mlLimit) (ht : WrittenRow x.cfg x.delim q e fs t) {pre post : List Bytes} {b : Bool}
    (hraw : rawLines x.src.data = pre ++ (rawLines (t ++ eolText b) ++ post)) :
    ∃ k, x.RowTo pre.length k ∧ (rawLines (t ++ eolText b)).length = k + 1 ∧ x.joined pre.length k = t := by
  obtain ⟨h1, h2, h3, h4, h5⟩ := written_goesOn hnul hc ha ht hraw
  exact ⟨_, ⟨h1, h2, fun i hi => ⟨h3 i hi, fun h => by have := h.1; have := h.2; have := hlim h.1; omega⟩⟩, h4, h5⟩

theorem eolText_last (t : Bytes) (b : Bool) : (t ++ eolText b).getLast? = some LF := by
  cases b <;> simp [eolText]

theorem written_mlRows {x : Ctx} (hnul : NUL ∉ x.src.data) (hc : x.cfg.WF) (ha : Agreed x.cfg x.delim q e) :
    ∀ {tab : Table} {pre : List Bytes}, tab.WithinLimit x.cfg → tab.Written x.cfg x.delim q e → rawLines x.src.data = pre ++ rawLines tab.text →
    x.MlRows pre.length (tab.map fun r => .text r.2.1)
  | [], pre, _, _, hraw => by
    refine .done fun m hm => ?_
    have h1 := hm.inside
    have h2 := hm.le
    rw [lines_length, hraw] at h1
    simp [Table.text, terminated, rawLines] at h1
    omega
  | (fs, t, b) :: tab, pre, hlim, hw, hraw => by
    have htext : Table.text ((fs, t, b) :: tab) = (t ++ eolText b) ++ Table.text tab := terminated_cons t b _
    rw [htext, rawLines_append (.inr (eolText_last t b))] at hraw
    have hrow : WrittenRow x.cfg x.delim q e fs t := hw (fs, t, b) (by simp)
    obtain ⟨k, h1, h2, h3⟩ := written_rowTo hnul hc ha (fun h => hlim h (fs, t, b) (by simp)) hrow hraw
    have hrest := written_mlRows hnul hc ha (tab := tab) (pre := pre ++ rawLines (t ++ eolText b)) (fun h r hr => hlim h r (by simp [hr]))
      (fun r hr => hw r (by simp [hr])) (by rw [hraw]; simp)
    rw [List.length_append, h2, ← Nat.add_assoc] at hrest
    have hst : x.Starts pre.length pre.length := by
      have hin := h1.inside
      refine ⟨Nat.le_refl _, ?_, fun i h1 h2 => by omega⟩
      refine ⟨(lines x.src.data)[pre.length], List.getElem?_eq_getElem (by omega), fun _ h0 => ?_⟩
      -- the first line of the row is not empty
      have hj : x.joined pre.length 0 = (lines x.src.data)[pre.length] := by
        unfold Ctx.joined
        have hl : pre.length < (rawLines x.src.data).length := by rw [← lines_length]; omega
        rw [List.drop_eq_getElem_cons hl]
        show chop ((rawLines x.src.data)[pre.length] ++ []) = _
        rw [List.append_nil]
        simp only [lines, List.getElem_map]
      obtain ⟨ts, hts, rfl, hne⟩ := hrow
      cases k with
      | zero => rw [h3, h0] at hj; exact hne hj
      | succ k =>
        have := (h1.before 0 (by omega)).1
        rw [hj, h0] at this
        rcases this with h | ⟨a, h⟩
        · simp [Cfg.Escaped] at h
        · rw [show cutNul [] = [] from rfl, decodeRow_nil] at h; cases h
    have := Ctx.MlRows.text hst h1 hrest
    rw [h3] at this
    exact this

/-- the text of a written row converts to the values of its fields -/
theorem written_yields {x : Ctx} (hx : x.Ok) (ha : Agreed x.cfg x.delim q e) {fs : List Bytes} {t : Bytes}
    (ht : WrittenRow x.cfg x.delim q e fs t) (h0 : NUL ∉ t) {rs : List Req} {vs : List Val} (hv : RowIs rs fs vs) :
    Ssp.Yields x.cfg (Conv.convertLine x.cfg rs x.delim { spl := { mem := t ++ [NUL] } }) vs := by
  obtain ⟨ts, hts, rfl, hne⟩ := ht
  obtain ⟨d0, ds, hd, hg⟩ := ha.good
  have hfs : fs ≠ [] := by
    rintro rfl
    cases ts with
    | nil => exact hne rfl
    | cons _ _ => exact hts.elim
  have hold : Holds ({ mem := join x.delim ts ++ [NUL] } : Spl) (join x.delim ts) [] := ⟨rfl, h0, rfl⟩
  have hacc : Accepts x.cfg (Spl.split x.cfg x.delim ({ spl := { mem := join x.delim ts ++ [NUL] } } : Conv).spl) fs := by
    have hnul : NUL ∉ ds := fun h => hx.delim0 (by rw [hd]; simp [h])
    have := C04_written_fields_roundtrip hx.wf hg hnul hfs (written_fields hx.wf (hd ▸ ha) (hd ▸ hts)) (hd ▸ hold)
    rw [hd]
    exact this
  refine (C20_valid_iff (⟨hx.wf, hx.delim, hx.delim0, hold, by intro i h; cases h⟩ : Given _ _ _ [] _) hne hacc).mpr ⟨?_, fs, .all, hv⟩
  have : ∀ {rs ss vs}, RowIs rs ss vs → rs.length = ss.length := by
    intro rs ss vs h
    induction h with
    | nil => rfl
    | cons _ _ ih => simp [ih]
  simpa [Fits] using this hv

/-- C55: A table whose fields are any texts without NUL, written row by row (each field between quotes with quotes
doubled and escape characters escaped, or as it is if nothing in it is special; rows ended by LF or CRLF in any mixture)
is read back by a parser with `quote` and `multiline`: the `k`-th `get_next` returns the values of the `k`-th row,
whatever types are requested that the fields convert to (for strings: the fields themselves, `C55_strings`), and `eof()` is
true exactly from the last row on. -/
theorem C55_table_roundtrip {x : Ctx} (hx : x.Ok) (hml : x.cfg.multiline = true)
    (hih : x.cfg.ignoreHeader = false) (ha : Agreed x.cfg x.delim q e) {tab : Table} (hw : tab.Written x.cfg x.delim q e)
    (hlim : tab.WithinLimit x.cfg)
    (h0 : NUL ∉ tab.text) (hdata : x.src.data = tab.text) {s : Parser} (h : Parser.Created x s)
    {reqs : List (List Req)} (hne : ∀ rs ∈ reqs, rs ≠ []) :
    ∃ os s', Parser.run x (reqs.map .getNext) s = some (os, s') ∧
      ∀ k rs r vs, reqs[k]? = some rs → tab[k]? = some r → RowIs rs r.1 vs →
        ∃ o, os[k]? = some o ∧ o.ret = .row (some vs) ∧ o.eof = decide (tab.length ≤ k + 1) := by
  obtain ⟨d0, ds, hd, hg⟩ := ha.good
  have hx' : x.MlOk := ⟨hx, hml, .inl ⟨hx.delim, by
    intro y hy
    rw [hd] at hy; cases hy
    exact ⟨hg.quote, hg.escape⟩⟩, ha.escape_eol.2, fun _ _ _ _ => joined_nul (by rw [hdata]; exact h0)⟩
  have hL := written_mlRows (x := x) (by rw [hdata]; exact h0) hx.wf ha (tab := tab) (pre := []) hlim hw (by rw [hdata]; rfl)
  obtain ⟨os, s', h1, h2⟩ := C37_sequence hx' reqs h.reachT (((C37_new_parser hx' h).1 hih).mpr hL) hne
  refine ⟨os, s', h1, ?_⟩
  intro k rs r vs hk hr hv
  obtain ⟨o, e1, e2, e3⟩ := h2 k rs hk
  refine ⟨o, e1, ?_, by rw [e2]; simp⟩
  rw [List.getElem?_map, hr] at e3
  have hmem : r ∈ tab := List.mem_of_getElem? hr
  have hnt : NUL ∉ r.2.1 := by
    intro hn
    refine h0 (List.mem_flatMap.mpr ⟨r.2, List.mem_map_of_mem hmem, ?_⟩)
    simp [hn]
  refine (e3.1 vs).mpr ?_
  unfold Parser.fresh
  rw [(created_rest hx'.live.good h).2.2.1]
  exact written_yields hx ha (hw r hmem) hnt hv

theorem rowIs_strings : ∀ fs : List Bytes, RowIs (fs.map fun _ => Req.ty .str) fs (fs.map .str)
  | [] => .nil
  | f :: fs => .cons (ov := some (.str f)) (.ty (C15_string_exact f)) (rowIs_strings fs)

/-- C55: fields requested as strings: the table itself is read back. -/
theorem C55_strings {x : Ctx} (hx : x.Ok) (hml : x.cfg.multiline = true)
    (hih : x.cfg.ignoreHeader = false) (ha : Agreed x.cfg x.delim q e) {tab : Table} (hw : tab.Written x.cfg x.delim q e)
    (hlim : tab.WithinLimit x.cfg)
    (h0 : NUL ∉ tab.text) (hdata : x.src.data = tab.text) {s : Parser} (h : Parser.Created x s) :
    ∃ os s', Parser.run x (tab.map fun r => .getNext (r.1.map fun _ => .ty .str)) s = some (os, s') ∧
      os.map (·.ret) = tab.map fun r => .row (some (r.1.map .str)) := by
  have hne : ∀ rs ∈ tab.map (fun r => r.1.map fun _ => Req.ty .str), rs ≠ [] := by
    intro rs hrs
    obtain ⟨r, hr, rfl⟩ := List.mem_map.mp hrs
    obtain ⟨ts, hts, ht, hne⟩ := hw r hr
    intro h
    have : r.1 = [] := by simpa using h
    rw [this] at hts
    cases ts with
    | nil => rw [ht] at hne; exact hne rfl
    | cons _ _ => exact hts.elim
  obtain ⟨os, s', h1, h2⟩ := C55_table_roundtrip hx hml hih ha hw hlim h0 hdata h hne
  rw [List.map_map] at h1
  refine ⟨os, s', h1, ?_⟩
  have hlen : os.length = tab.length := by rw [run_length _ h1]; simp
  refine List.ext_getElem? fun k => ?_
  rw [List.getElem?_map, List.getElem?_map]
  cases hr : tab[k]? with
  | none =>
    have : tab.length ≤ k := List.getElem?_eq_none_iff.mp hr
    rw [List.getElem?_eq_none (by omega)]
    rfl
  | some r =>
    obtain ⟨o, e1, e2, _⟩ := h2 k _ r _ (by rw [List.getElem?_map, hr]; rfl) hr (rowIs_strings r.1)
    rw [e1, Option.map_some, e2]
    rfl

/-- C55, without multiline: the same for fields without line terminators. -/
theorem C55_table_roundtrip_single {x : Ctx} (hx : x.Ok) (hml : x.cfg.multiline = false)
    (hih : x.cfg.ignoreHeader = false) (ha : Agreed x.cfg x.delim q e) {tab : Table} (hw : tab.Written x.cfg x.delim q e)
    (h0 : NUL ∉ tab.text) (hlf : ∀ r ∈ tab, LF ∉ r.2.1) (hdata : x.src.data = tab.text) {s : Parser} (h : Parser.Created x s)
    {reqs : List (List Req)} (hne : ∀ rs ∈ reqs, rs ≠ []) :
    ∃ os s', Parser.run x (reqs.map .getNext) s = some (os, s') ∧
      ∀ k rs r vs, reqs[k]? = some rs → tab[k]? = some r → RowIs rs r.1 vs →
        ∃ o, os[k]? = some o ∧ o.ret = .row (some vs) ∧ o.eof = decide (tab.length ≤ k + 1) := by
  have hrows : x.rows = tab.map (·.2.1) := by
    have hl : lines x.src.data = tab.map (·.2.1) := by
      rw [hdata, Table.text, lines_terminated, List.map_map]
      · rfl
      · intro l hl
        obtain ⟨r, hr, rfl⟩ := List.mem_map.mp hl
        refine ⟨hlf r hr, fun hcr => ?_⟩
        obtain ⟨ts, hts, ht, _⟩ := hw r hr
        rw [ht] at hcr
        exact (written_last hx.wf ha hts hcr).2.1 rfl
    unfold Ctx.rows Ctx.rest
    rw [hih, hl]
    simp only [List.drop_zero, Bool.false_eq_true, if_false]
    rw [List.filter_eq_self]
    intro t ht
    obtain ⟨r, hr, rfl⟩ := List.mem_map.mp ht
    obtain ⟨ts, _, _, hne⟩ := hw r hr
    simp [hne]
  obtain ⟨os, s', h1, h2⟩ := C25_sequence hx hml h hne
  refine ⟨os, s', h1, ?_⟩
  intro k rs r vs hk hr hv
  obtain ⟨o, e1, e2, e3⟩ := h2 k rs hk
  refine ⟨o, e1, ?_, by rw [e2, hrows]; simp⟩
  rw [hrows, List.getElem?_map, hr] at e3
  have hmem : r ∈ tab := List.mem_of_getElem? hr
  have hnt : NUL ∉ r.2.1 := by
    intro hn
    refine h0 (List.mem_flatMap.mpr ⟨r.2, List.mem_map_of_mem hmem, ?_⟩)
    simp [hn]
  exact (e3.1 vs).mpr (written_yields hx ha (hw r hmem) hnt hv)

open Demo in
/-- a written table: a row of two lines with quotes and an escape character, and an empty field -/
example : ∃ tab : Table, tab.map (·.1) = [[bs "a\n\"b\\", bs "1"], [bs "", bs "c d"]] ∧ Agreed cm (bs ",") 34 92 ∧
    tab.Written cm (bs ",") 34 92 ∧ tab.text = bs "\"a\n\"\"b\\\\\",1\r\n,\"c d\"\n" := by
  refine ⟨[([bs "a\n\"b\\", bs "1"], bs "\"a\n\"\"b\\\\\",1", true), ([bs "", bs "c d"], bs ",\"c d\"", false)], rfl, ?_, ?_, by decide +kernel⟩
  · exact ⟨rfl, by decide, ⟨44, [], by decide, by constructor <;> decide⟩, by decide, by decide, by decide⟩
  · intro r hr
    simp at hr
    rcases hr with rfl | rfl
    · exact ⟨[quoteField cm 34 92 (bs "a\n\"b\\"), bs "1"], ⟨.quoted, .bare (by decide), trivial⟩, by decide +kernel, by decide +kernel⟩
    · exact ⟨[bs "", quoteField cm 34 92 (bs "c d")], ⟨.bare (by decide), .quoted, trivial⟩, by decide +kernel, by decide +kernel⟩

end Ssp
