import Verif.Model.Splitter
/-!
# Pure description of splitting

`Spec.decode` reads a raw text (no terminator, no memory, no pointers) from left to right and builds
the fields as fresh byte strings.  `Verif.Proofs.SplitRefine` proves that the in-place splitter
computes exactly this; the user-level theorems (join, quoting, escaping, trimming, ...) are then stated
on their own, without reference to this function.
-/
namespace Ssp.Spec

/-- How the text of a row ends. -/
inductive End where
  /-- complete row -/
  | eol
  /-- the last (unquoted) field ends with an active escape character -/
  | eolEscape
  /-- end of text inside a quoted field whose decoded content so far is `acc` -/
  | openQuote (acc : Bytes)
  /-- the text ends, inside a quoted field, with an active escape character -/
  | openEscape
  /-- a quote that is neither closing nor doubled; `rem` bytes of the text are left at the reported
  position; `esc`: an escape character ends the text behind it (and optional spacing) -/
  | mismatch (rem : Nat) (esc : Bool)
  deriving DecidableEq, Repr

/-- Are we reading an unquoted or a quoted field? -/
inductive Mode where
  | normal
  | quoted
  deriving DecidableEq, Repr

/-- A field starting with the quote character is quoted. -/
def start (c : Cfg) : Bytes → Mode × Bytes
  | [] => (.normal, [])
  | x :: xs => if c.quote = some x then (.quoted, xs) else (.normal, x :: xs)

theorem start_length_le (c : Cfg) (r : Bytes) : (start c r).2.length ≤ r.length := by
  cases r with
  | nil => simp [start]
  | cons x xs => simp only [start]; split <;> simp

/-- Text behind a delimiter at the head of `r`, left spacing removed. -/
def afterDelim (c : Cfg) (d r : Bytes) : Bytes := (r.drop d.length).dropWhile (· ∈ c.trimL)

theorem length_dropWhile_le {α} (p : α → Bool) (l : List α) : (l.dropWhile p).length ≤ l.length := by
  induction l with
  | nil => simp
  | cons a l ih => simp only [List.dropWhile]; split <;> simp <;> omega

theorem afterDelim_lt (c : Cfg) (d r s : Bytes) (hd : d ≠ []) (hp : d.isPrefixOf r = true)
    (hl : r.length ≤ s.length) : (afterDelim c d r).length < s.length := by
  have h2 := length_dropWhile_le (fun x => decide (x ∈ c.trimL)) (r.drop d.length)
  have h3 : d.length ≤ r.length := (List.isPrefixOf_iff_prefix.mp hp).length_le
  have h4 : 0 < d.length := List.length_pos_iff.mpr hd
  simp only [afterDelim, List.length_drop] at *
  omega

/-- Result of decoding one field. -/
inductive FieldRes where
  /-- the field ended at a delimiter; `rest` is the text of the following fields -/
  | next (f rest : Bytes)
  /-- the field is the last one of the row -/
  | last (f : Bytes) (e : End)
  /-- no field can be delivered -/
  | stop (e : End)
  deriving DecidableEq, Repr

/-- Decode the rest `r` of a field; `acc` is its already decoded beginning. -/
def field (c : Cfg) (d : Bytes) (m : Mode) (acc : Bytes) (r : Bytes) : FieldRes :=
  match m with
  | .normal =>
    let ts := r.takeWhile (· ∈ c.trimR)
    match _hr : r.dropWhile (· ∈ c.trimR) with
    | [] => .last acc .eol
    | x :: xs =>
      if d.isPrefixOf (x :: xs) then .next acc (afterDelim c d (x :: xs))
      else if x ∈ c.escape then
        match xs with
        | [] => .last (acc ++ ts ++ [x]) .eolEscape
        | y :: ys => field c d .normal (acc ++ (ts ++ [x, y]).tail) ys
      else field c d .normal (acc ++ ts ++ [x]) xs
  | .quoted =>
    match r with
    | [] => .stop (.openQuote acc)
    | x :: xs =>
      if c.quote ≠ some x then
        if x ∈ c.escape then
          match xs with
          | [] => .stop .openEscape
          | y :: ys => field c d .quoted (acc ++ [y]) ys
        else field c d .quoted (acc ++ [x]) xs
      else
        match xs.dropWhile (· ∈ c.trimR) with
        | [] => .last acc .eol
        | z :: zs =>
          if d.isPrefixOf (z :: zs) then .next acc (afterDelim c d (z :: zs))
          else
            match xs with
            | [] => .last acc .eol
            | y :: ys =>
              if y = x then field c d .quoted (acc ++ [x]) ys
              else if y ∈ c.escape ∧ ys.head? = some x then field c d .quoted (acc ++ [x]) ys.tail
              else if z ∈ c.escape then
                if zs = [] then .stop (.mismatch (x :: xs).length true)
                else .stop (.mismatch xs.length false)
              else .stop (.mismatch (x :: xs).length false)
termination_by r.length
decreasing_by
  · have := length_dropWhile_le (fun x => decide (x ∈ c.trimR)) r
    rw [_hr] at this; simp at this; omega
  · have := length_dropWhile_le (fun x => decide (x ∈ c.trimR)) r
    rw [_hr] at this; simp at this; omega
  · simp; omega
  · simp
  · simp; omega
  · cases ys <;> simp <;> omega

theorem field_next_length (c : Cfg) (d : Bytes) (hd : d ≠ []) (m : Mode) (acc r f rest : Bytes)
    (h : field c d m acc r = .next f rest) : rest.length < r.length := by
  fun_induction field c d m acc r with
  | case1 => cases h
  | case2 acc r x xs hr hp =>
    cases h
    have := length_dropWhile_le (fun x => decide (x ∈ c.trimR)) r
    rw [hr] at this
    exact afterDelim_lt c d _ r hd hp this
  | case3 => cases h
  | case4 acc r ts x _ hx y ys hr hp ih =>
    have := length_dropWhile_le (fun x => decide (x ∈ c.trimR)) r
    rw [hr] at this; simp at this
    have := ih h; omega
  | case5 acc r ts x xs hr hp hx ih =>
    have := length_dropWhile_le (fun x => decide (x ∈ c.trimR)) r
    rw [hr] at this; simp at this
    have := ih h; omega
  | case6 => cases h
  | case7 => cases h
  | case8 => rename_i ih; have := ih h; simp; omega
  | case9 => rename_i ih; have := ih h; simp; omega
  | case10 => cases h
  | case11 acc x xs hq z zs hz hp =>
    cases h
    have := length_dropWhile_le (fun x => decide (x ∈ c.trimR)) xs
    rw [hz] at this
    exact afterDelim_lt c d _ _ hd hp (by simp at this ⊢; omega)
  | case12 => cases h
  | case13 => rename_i ih; have := ih h; simp; omega
  | case14 => rename_i ih; have := ih h; rename_i ys _ _ _; cases ys <;> simp at * <;> omega
  | case15 => cases h
  | case16 => cases h
  | case17 => cases h

theorem dropWhile_sub {p : Byte → Bool} {l : Bytes} {y : Byte} (h : y ∈ l.dropWhile p) : y ∈ l :=
  (List.dropWhile_sublist p).subset h

theorem afterDelim_sub {c : Cfg} {d r : Bytes} {y : Byte} (h : y ∈ afterDelim c d r) : y ∈ r :=
  List.mem_of_mem_drop (dropWhile_sub h)

theorem field_next_sub (c : Cfg) (d : Bytes) (m : Mode) (acc r f rest : Bytes)
    (h : field c d m acc r = .next f rest) : ∀ y ∈ rest, y ∈ r := by
  intro y hy
  fun_induction field c d m acc r with
  | case1 => cases h
  | case2 acc r x xs hr hp =>
    cases h
    exact dropWhile_sub (hr ▸ afterDelim_sub hy)
  | case3 => cases h
  | case4 acc r ts x _ hx y' ys hr hp ih =>
    exact dropWhile_sub (p := fun x => decide (x ∈ c.trimR)) (by rw [hr]; simp [ih h])
  | case5 acc r ts x xs hr hp hx ih =>
    exact dropWhile_sub (p := fun x => decide (x ∈ c.trimR)) (by rw [hr]; simp [ih h])
  | case6 => cases h
  | case7 => cases h
  | case8 => rename_i ih; have := ih h; simp [this]
  | case9 => rename_i ih; have := ih h; simp [this]
  | case10 => cases h
  | case11 acc x xs hq z zs hz hp =>
    cases h
    exact List.mem_cons_of_mem _ (dropWhile_sub (hz ▸ afterDelim_sub hy))
  | case12 => cases h
  | case13 => rename_i ih; have := ih h; simp [this]
  | case14 => rename_i ih; have := List.mem_of_mem_tail (ih h); simp [this]
  | case15 => cases h
  | case16 => cases h
  | case17 => cases h

/-- The last field of a row ends properly or with an active escape. -/
theorem field_last_end (c : Cfg) (d : Bytes) (m : Mode) (acc r f : Bytes) (e : End)
    (h : field c d m acc r = .last f e) : e = .eol ∨ e = .eolEscape := by
  fun_induction field c d m acc r with
  | case1 => cases h; simp
  | case2 => cases h
  | case3 => cases h; simp
  | case4 => rename_i ih; exact ih h
  | case5 => rename_i ih; exact ih h
  | case6 => cases h
  | case7 => cases h
  | case8 => rename_i ih; exact ih h
  | case9 => rename_i ih; exact ih h
  | case10 => cases h; simp
  | case11 => cases h
  | case12 => cases h; simp
  | case13 => rename_i ih; exact ih h
  | case14 => rename_i ih; exact ih h
  | case15 => cases h
  | case16 => cases h
  | case17 => cases h

theorem field_stop_quoted (c : Cfg) (d : Bytes) (m : Mode) (acc r : Bytes) (e : End)
    (h : field c d m acc r = .stop e) : m = .quoted := by
  fun_induction field c d m acc r with
  | case1 => cases h
  | case2 => cases h
  | case3 => cases h
  | case4 => rename_i ih; exact ih h
  | case5 => rename_i ih; exact ih h
  | _ => rfl

/-- Decode a row from inside a field (mode `m`, decoded beginning `acc`).  Returns the fields completed
from here on and how the row ended.  An empty delimiter is never passed (`d ≠ []` is checked to keep
the definition total). -/
def decode (c : Cfg) (d : Bytes) (m : Mode) (acc r : Bytes) : List Bytes × End :=
  match _h : field c d m acc r with
  | .next f rest =>
    if _hd : d = [] then ([f], .eol)
    else
      let n := start c rest
      let (fs, e) := decode c d n.1 [] n.2
      (f :: fs, e)
  | .last f e => ([f], e)
  | .stop e => ([], e)
termination_by r.length
decreasing_by
  have := field_next_length c d _hd m acc r f rest _h
  have := start_length_le c rest
  omega

/-- Decode the text of fields starting at a field boundary. -/
def decodeFields (c : Cfg) (d r : Bytes) : List Bytes × End :=
  decode c d (start c r).1 [] (start c r).2

/-- Decode a whole row. -/
def decodeRow (c : Cfg) (d r : Bytes) : List Bytes × End :=
  decodeFields c d (r.dropWhile (· ∈ c.trimL))

/-- The message a split of a text of `len` bytes leaves behind in `string_error` mode (`none`: valid). -/
def End.stringError (multiline : Bool) (len : Nat) : End → Option Bytes
  | .eol => none
  | .eolEscape => if multiline then none else some Spl.msgUnterminatedEscape
  | .openQuote _ => if multiline then none else some Spl.msgUnterminatedQuote
  | .openEscape => if multiline then none else some Spl.msgUnterminatedEscape
  | .mismatch rem _ => some (Spl.msgMismatchedQuote (len - rem))

/-- The exception a split of a text of `len` bytes throws in `throw_on_error` mode. -/
def End.throwError (multiline : Bool) (len : Nat) : End → Option Bytes
  | .mismatch rem true =>
    if multiline then some (Spl.msgMismatchedQuote (len - rem)) else some Spl.msgUnterminatedEscape
  | e => e.stringError multiline len

/-- A delimiter that does not start with a quote or an escape character. -/
def Clean (c : Cfg) (d : Bytes) : Prop :=
  d ≠ [] ∧ ∀ x, d.head? = some x → c.quote ≠ some x ∧ x ∉ c.escape

/-- A text may be cut before `more`: the delimiter does not start with a quote or an escape character, or `more` does not
start with a byte of the delimiter (which could complete a delimiter that begins in the quote before it, see
`C12_cut_in_delimiter`). -/
def Joint (c : Cfg) (d more : Bytes) : Prop := Clean c d ∨ d ≠ [] ∧ ∀ z, more.head? = some z → z ∉ d

/-- A row may be cut between lines: the delimiter does not start with a quote or an escape character, or it contains no
end of a line. -/
def LineJoint (c : Cfg) (d : Bytes) : Prop := Clean c d ∨ d ≠ [] ∧ LF ∉ d ∧ CR ∉ d

end Ssp.Spec
