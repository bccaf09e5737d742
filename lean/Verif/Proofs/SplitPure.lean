import Verif.Spec.Split
import Verif.Spec.Text
/-!
# The pure decoding of texts given by the grammar
-/
namespace Ssp.Spec
open Ssp.Text

theorem dropWhile_only_append {set l R : Bytes} (h : Only set l) :
    (l ++ R).dropWhile (· ∈ set) = R.dropWhile (· ∈ set) := by
  induction l with
  | nil => rfl
  | cons x l ih =>
    have hx : x ∈ set := h x (by simp)
    simp only [List.cons_append, List.dropWhile_cons, hx, decide_true, if_true]
    exact ih (fun y hy => h y (by simp [hy]))

theorem takeWhile_only_append {set l R : Bytes} (h : Only set l) :
    (l ++ R).takeWhile (· ∈ set) = l ++ R.takeWhile (· ∈ set) := by
  induction l with
  | nil => rfl
  | cons x l ih =>
    have hx : x ∈ set := h x (by simp)
    simp only [List.cons_append, List.takeWhile_cons, hx, decide_true, if_true]
    rw [ih (fun y hy => h y (by simp [hy]))]

theorem dropWhile_head_not {set R : Bytes} {x : Byte} (h : x ∉ set) :
    (x :: R).dropWhile (· ∈ set) = x :: R := by simp [h]

theorem takeWhile_head_not {set R : Bytes} {x : Byte} (h : x ∉ set) :
    (x :: R).takeWhile (· ∈ set) = [] := by simp [h]

theorem dropWhile_only {set l : Bytes} (h : Only set l) : l.dropWhile (· ∈ set) = [] := by
  have := dropWhile_only_append (R := []) h
  simpa using this

/-- one step of an unquoted field -/
theorem field_normal_eq (c : Cfg) (d acc r : Bytes) :
    field c d .normal acc r =
      match r.dropWhile (· ∈ c.trimR) with
      | [] => .last acc .eol
      | x :: xs =>
        if d.isPrefixOf (x :: xs) then .next acc (afterDelim c d (x :: xs))
        else if x ∈ c.escape then
          match xs with
          | [] => .last (acc ++ r.takeWhile (· ∈ c.trimR) ++ [x]) .eolEscape
          | y :: ys => field c d .normal (acc ++ (r.takeWhile (· ∈ c.trimR) ++ [x, y]).tail) ys
        else field c d .normal (acc ++ r.takeWhile (· ∈ c.trimR) ++ [x]) xs := by
  rw [field]
  split
  · rename_i h; rw [h]
  · rename_i x xs h
    cases xs <;> simp [h]

/-- one step of a quoted field -/
theorem field_quoted_eq (c : Cfg) (d acc r : Bytes) :
    field c d .quoted acc r =
      match r with
      | [] => .stop (.openQuote acc)
      | x :: xs =>
        if c.quote ≠ some x then
          if x ∈ c.escape then
            match xs with
            | [] => .stop .openEscape
            | y :: ys => field c d .quoted (acc ++ [y]) ys
          else field c d .quoted (acc ++ [x]) xs
        else
          match xs.dropWhile (· ∈ c.trimR) with
          | [] => .last acc .eol
          | z :: zs =>
            if d.isPrefixOf (z :: zs) then .next acc (afterDelim c d (z :: zs))
            else
              match xs with
              | [] => .last acc .eol
              | y :: ys =>
                if y = x then field c d .quoted (acc ++ [x]) ys
                else if y ∈ c.escape ∧ ys.head? = some x then field c d .quoted (acc ++ [x]) ys.tail
                else if z ∈ c.escape then
                  if zs = [] then .stop (.mismatch (x :: xs).length true)
                  else .stop (.mismatch xs.length false)
                else .stop (.mismatch (x :: xs).length false) := by
  rw [field.eq_def]
  rfl

theorem not_prefix {d0 x : Byte} {ds xs : Bytes} (h : x ≠ d0) :
    (d0 :: ds).isPrefixOf (x :: xs) = false := by
  have : (d0 == x) = false := by simpa using fun h' => h h'.symm
  simp [List.isPrefixOf, this]

theorem decode_next {c : Cfg} {d : Bytes} (hdn : d ≠ []) {m : Mode} {acc r f rest : Bytes}
    (h : field c d m acc r = .next f rest) :
    decode c d m acc r = (f :: (decodeFields c d rest).1, (decodeFields c d rest).2) := by
  rw [decode]
  split
  · rename_i f' rest' h'
    rw [h] at h'
    cases h'
    simp [hdn, decodeFields]
  · rename_i h'; rw [h] at h'; cases h'
  · rename_i h'; rw [h] at h'; cases h'

theorem decode_last {c : Cfg} {d : Bytes} {m : Mode} {acc r f : Bytes} {e : End}
    (h : field c d m acc r = .last f e) : decode c d m acc r = ([f], e) := by
  rw [decode]
  split
  · rename_i h'; rw [h] at h'; cases h'
  · rename_i h'; rw [h] at h'; cases h'; rfl
  · rename_i h'; rw [h] at h'; cases h'

theorem decode_stop {c : Cfg} {d : Bytes} {m : Mode} {acc r : Bytes} {e : End}
    (h : field c d m acc r = .stop e) : decode c d m acc r = ([], e) := by
  rw [decode]
  split
  · rename_i h'; rw [h] at h'; cases h'
  · rename_i h'; rw [h] at h'; cases h'
  · rename_i h'; rw [h] at h'; cases h'; rfl

section
variable {c : Cfg} (hc : c.WF) {d0 : Byte} {ds : Bytes}
include hc

theorem field_quoted_body {q : Byte} (hq : c.quote = some q) (hqd : q ≠ d0) {f t : Bytes}
    (h : Quoted c q f t) : ∀ acc R : Bytes,
    field c (d0 :: ds) .quoted acc (t ++ R) = field c (d0 :: ds) .quoted (acc ++ f) R := by
  have hqr := hc.qr q hq
  have hqe := hc.qe q hq
  induction h with
  | nil => intro acc R; simp
  | raw h1 h2 _ ih =>
    intro acc R
    rw [List.cons_append, field_quoted_eq]
    simp only [hq, ne_eq, Option.some.injEq, h1.symm, not_false_eq_true, if_true, h2, if_false]
    rw [ih]; simp
  | dbl _ ih =>
    intro acc R
    rw [List.cons_append, field_quoted_eq]
    simp only [List.cons_append, hq, ne_eq, not_true_eq_false, if_false, dropWhile_head_not hqr,
      not_prefix hqd, Bool.false_eq_true, if_true]
    rw [ih]; simp
  | @esc e x f t h1 _ ih =>
    intro acc R
    have heq : q ≠ e := fun h => hqe (h ▸ h1)
    rw [List.cons_append, field_quoted_eq]
    simp only [List.cons_append, hq, ne_eq, Option.some.injEq, heq, not_false_eq_true, if_true, h1]
    rw [ih]; simp

variable (hd : GoodDelim c d0)
include hd

theorem field_plain_body {f t : Bytes} (h : Plain c d0 f t) : ∀ acc R : Bytes,
    field c (d0 :: ds) .normal acc (t ++ R) = field c (d0 :: ds) .normal (acc ++ f) R := by
  induction h with
  | nil => intro acc R; simp
  | @raw sp x f t h1 h2 h3 h4 _ ih =>
    intro acc R
    rw [field_normal_eq]
    simp only [List.append_assoc, List.cons_append, dropWhile_only_append h1,
      takeWhile_only_append h1, dropWhile_head_not h2, takeWhile_head_not h2, not_prefix h4,
      Bool.false_eq_true, if_false, h3, List.append_nil]
    rw [ih]; simp
  | @esc e x f t h1 _ ih =>
    intro acc R
    have h2 : e ∉ c.trimR := hc.er e h1
    have h4 : e ≠ d0 := fun h => hd.escape (h ▸ h1)
    rw [List.cons_append, field_normal_eq]
    simp only [dropWhile_head_not h2, takeWhile_head_not h2, not_prefix h4,
      Bool.false_eq_true, if_false, h1, if_true, List.cons_append, List.nil_append, List.tail_cons]
    rw [ih]; simp

omit hc in
/-- the trailing spacing and the delimiter end an unquoted field -/
theorem field_plain_delim {r R : Bytes} (hr : Only c.trimR r) (acc : Bytes) :
    field c (d0 :: ds) .normal acc (r ++ (d0 :: ds ++ R)) = .next acc (trimL c.trimL R) := by
  rw [field_normal_eq]
  have hp : (d0 :: ds).isPrefixOf (d0 :: (ds ++ R)) = true :=
    List.isPrefixOf_iff_prefix.mpr ⟨R, by simp⟩
  simp only [List.cons_append, dropWhile_only_append hr, dropWhile_head_not hd.trimR, hp, if_true]
  simp [afterDelim, trimL]

omit hc in
theorem field_quoted_delim {q : Byte} (hq : c.quote = some q) {r R : Bytes} (hr : Only c.trimR r)
    (acc : Bytes) :
    field c (d0 :: ds) .quoted acc (q :: (r ++ (d0 :: ds ++ R))) = .next acc (trimL c.trimL R) := by
  rw [field_quoted_eq]
  have hp : (d0 :: ds).isPrefixOf (d0 :: (ds ++ R)) = true :=
    List.isPrefixOf_iff_prefix.mpr ⟨R, by simp⟩
  simp only [List.cons_append, dropWhile_only_append hr, dropWhile_head_not hd.trimR, hp, if_true,
    hq, ne_eq, not_true_eq_false, if_false]
  simp [afterDelim, trimL]

omit hc hd in
theorem field_plain_eol {r : Bytes} (hr : Only c.trimR r) (acc : Bytes) :
    field c (d0 :: ds) .normal acc r = .last acc .eol := by
  rw [field_normal_eq, dropWhile_only hr]

omit hc hd in
theorem field_quoted_eol {q : Byte} (hq : c.quote = some q) {r : Bytes} (hr : Only c.trimR r)
    (acc : Bytes) : field c (d0 :: ds) .quoted acc (q :: r) = .last acc .eol := by
  rw [field_quoted_eq]
  simp [hq, dropWhile_only hr]

omit hd in
/-- the beginning of a quoted field -/
theorem decodeRow_quoted {q : Byte} (hq : c.quote = some q) {l R : Bytes} (hl : Only c.trimL l) :
    decodeRow c (d0 :: ds) (l ++ q :: R) = decode c (d0 :: ds) .quoted [] R := by
  have hql : q ∉ c.trimL := hc.ql q hq
  rw [decodeRow, dropWhile_only_append hl, dropWhile_head_not hql, decodeFields]
  simp [start, hq]

omit hc hd in
/-- the beginning of an unquoted field -/
theorem decodeRow_plain {l R : Bytes} (hl : Only c.trimL l)
    (h : ∀ x, R.head? = some x → c.quote ≠ some x ∧ x ∉ c.trimL) :
    decodeRow c (d0 :: ds) (l ++ R) = decode c (d0 :: ds) .normal [] R := by
  rw [decodeRow, dropWhile_only_append hl, decodeFields]
  cases R with
  | nil => simp [start]
  | cons x R =>
    obtain ⟨h1, h2⟩ := h x rfl
    rw [dropWhile_head_not h2]
    simp [start, h1]

/-- a field followed by a delimiter -/
theorem decodeRow_field {f t : Bytes} (h : Field c d0 f t) (R : Bytes) :
    decodeRow c (d0 :: ds) (t ++ (d0 :: ds) ++ R) =
      (f :: (decodeRow c (d0 :: ds) R).1, (decodeRow c (d0 :: ds) R).2) := by
  cases h with
  | @quoted q l f t r hq hl hqt hr =>
    have hqd : q ≠ d0 := fun h => hd.quote (h ▸ hq)
    rw [show l ++ q :: t ++ q :: r ++ (d0 :: ds) ++ R = l ++ q :: (t ++ (q :: (r ++ (d0 :: ds ++ R)))) by simp]
    rw [decodeRow_quoted hc hq hl]
    rw [decode_next (by simp) (f := f) (rest := trimL c.trimL R)]
    · rfl
    · rw [field_quoted_body hc hq hqd hqt, field_quoted_delim hd hq hr]; rfl
  | @plain l f t r hl hpt hr hh =>
    rw [show l ++ t ++ r ++ (d0 :: ds) ++ R = l ++ (t ++ (r ++ (d0 :: ds ++ R))) by simp]
    rw [decodeRow_plain hl]
    · rw [decode_next (by simp) (f := f) (rest := trimL c.trimL R)]
      · rfl
      · rw [field_plain_body hc hd hpt, field_plain_delim hd hr]; rfl
    · intro x hx
      rw [← List.append_assoc] at hx
      cases htr : t ++ r with
      | nil =>
        rw [htr] at hx
        simp at hx
        exact ⟨hx ▸ hd.quote, hx ▸ hd.trimL⟩
      | cons y ys =>
        rw [htr] at hx
        simp at hx
        exact hh x (by rw [htr]; simp [hx])

/-- the last field -/
theorem decodeRow_last {f t : Bytes} (h : Field c d0 f t) :
    decodeRow c (d0 :: ds) t = ([f], .eol) := by
  cases h with
  | @quoted q l f t r hq hl hqt hr =>
    have hqd : q ≠ d0 := fun h => hd.quote (h ▸ hq)
    rw [show l ++ q :: t ++ q :: r = l ++ q :: (t ++ (q :: r)) by simp]
    rw [decodeRow_quoted hc hq hl]
    apply decode_last
    rw [field_quoted_body hc hq hqd hqt, field_quoted_eol hq hr]; rfl
  | @plain l f t r hl hpt hr hh =>
    rw [show l ++ t ++ r = l ++ (t ++ r) by simp]
    rw [decodeRow_plain hl hh]
    apply decode_last
    rw [field_plain_body hc hd hpt, field_plain_eol hr]; rfl

/-- any number of fields, each followed by a delimiter -/
theorem decodeRow_fields : ∀ {fs ts : List Bytes}, Fields c d0 fs ts → ∀ R : Bytes,
    decodeRow c (d0 :: ds) (ts.flatMap (· ++ (d0 :: ds)) ++ R) =
      (fs ++ (decodeRow c (d0 :: ds) R).1, (decodeRow c (d0 :: ds) R).2)
  | [], [], _, R => by simp
  | f :: fs, t :: ts, ⟨h1, h2⟩, R => by
    rw [List.flatMap_cons, List.append_assoc, decodeRow_field hc hd h1, decodeRow_fields h2]
    rfl
  | [], _ :: _, h, _ => h.elim
  | _ :: _, [], h, _ => h.elim

theorem decodeRow_join : ∀ {fs ts : List Bytes}, fs ≠ [] → Fields c d0 fs ts →
    decodeRow c (d0 :: ds) (join (d0 :: ds) ts) = (fs, .eol)
  | [], _, h, _ => absurd rfl h
  | [f], [t], _, ⟨h1, _⟩ => decodeRow_last hc hd h1
  | [_], _ :: _ :: _, _, ⟨_, h⟩ => h.elim
  | f :: f' :: fs, [t], _, ⟨_, h⟩ => h.elim
  | f :: f' :: fs, t :: t' :: ts, _, ⟨h1, h2⟩ => by
    rw [join, decodeRow_field hc hd h1, decodeRow_join (by simp) h2]
    simp
  | _ :: _, [], _, h => h.elim

end
end Ssp.Spec
