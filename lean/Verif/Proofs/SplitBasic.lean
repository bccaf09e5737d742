import Verif.Spec.Split
/-!
# Primitive steps of the splitter on a memory of known shape
-/
namespace Ssp.Spl
open Ssp

theorem rd_at {s : Spl} {A B : Bytes} {x : Byte} {p : Nat} (h : s.mem = A ++ x :: B)
    (hp : p = A.length) : rd p s = .ok x s := by
  subst hp
  simp [rd, h]

theorem rd_bind {β : Type} {s : Spl} {A B : Bytes} {x : Byte} {p : Nat} (f : Byte → M Spl β)
    (h : s.mem = A ++ x :: B) (hp : p = A.length) : (rd p >>= f) s = f x s :=
  M.bind_of_ok (rd_at h hp)

/-- Shape of a NUL terminated remainder: either a byte or the terminator comes first. -/
theorem skipWhile_spec (set : List Byte) (h0 : NUL ∉ set) (T : Bytes) (s : Spl) :
    ∀ (r A : Bytes) (f p : Nat), s.mem = A ++ (r ++ NUL :: T) → p = A.length → r.length < f →
      skipWhile set f p s = .ok (p + (r.takeWhile (· ∈ set)).length) s := by
  intro r
  induction r with
  | nil =>
    intro A f p hm hp hf
    cases f with
    | zero => simp at hf
    | succ f =>
      simp only [skipWhile]
      rw [rd_bind _ (x := NUL) (A := A) (B := T) (by simpa using hm) hp]
      simp [h0]
  | cons x r ih =>
    intro A f p hm hp hf
    cases f with
    | zero => simp at hf
    | succ f =>
      simp only [skipWhile]
      rw [rd_bind _ (x := x) (A := A) (B := r ++ NUL :: T) (by simpa using hm) hp]
      by_cases hx : x ∈ set
      · simp only [hx, if_true]
        rw [ih (A ++ [x]) f (p + 1) (by simp [hm]) (by simp [hp]) (by simp at hf; omega)]
        simp [hx]; omega
      · simp [hx]

theorem trimIfEnabled_spec (set : List Byte) (h0 : NUL ∉ set) {T : Bytes} {s : Spl}
    {r A : Bytes} {p : Nat} (hm : s.mem = A ++ (r ++ NUL :: T)) (hp : p = A.length) :
    trimIfEnabled set p s = .ok (p + (r.takeWhile (· ∈ set)).length) s := by
  unfold trimIfEnabled
  by_cases hs : set = []
  · subst hs
    have : r.takeWhile (fun x => decide (x ∈ ([] : List Byte))) = [] := by
      cases r <;> simp
    rw [this]; simp
  · simp only [hs, if_false]
    apply skipWhile_spec set h0 T s r A _ p hm hp
    simp [hm]; omega

theorem strncmpEq_spec (T : Bytes) (s : Spl) :
    ∀ (ds r A : Bytes) (p : Nat), NUL ∉ ds → NUL ∉ r → s.mem = A ++ (r ++ NUL :: T) → p = A.length →
      strncmpEq p ds s = .ok (ds.isPrefixOf r) s := by
  intro ds
  induction ds with
  | nil => intro r A p _ _ _ _; simp [strncmpEq]
  | cons d ds ih =>
    intro r A p hd hr hm hp
    simp only [List.mem_cons, not_or] at hd
    cases r with
    | nil =>
      simp only [strncmpEq]
      rw [rd_bind _ (x := NUL) (A := A) (B := T) (by simpa using hm) hp]
      simp [hd.1]
    | cons x r =>
      simp only [List.mem_cons, not_or] at hr
      simp only [strncmpEq]
      rw [rd_bind _ (x := x) (A := A) (B := r ++ NUL :: T) (by simpa using hm) hp]
      by_cases hxd : x = d
      · subst hxd
        simp only [ne_eq, not_true_eq_false, if_false, List.isPrefixOf, beq_self_eq_true,
          Bool.true_and]
        rw [if_neg (fun h => hr.1 h.symm)]
        exact ih r (A ++ [x]) (p + 1) hd.2 hr.2 (by simp [hm]) (by simp [hp])
      · have : (d == x) = false := by simpa using fun h => hxd h.symm
        simp [hxd, List.isPrefixOf, this]

/-- The bytes of a dispatched delimiter. -/
def Delim.bytes : Delim → Bytes
  | .chr b => [b]
  | .str d => d

theorem delimSize_eq (d : Delim) : delimSize d = d.bytes.length := by cases d <;> rfl

theorem matchDelim_spec {T : Bytes} {s : Spl} (d : Delim) {x : Byte} {xs A : Bytes} {p : Nat}
    (hd : NUL ∉ d.bytes) (hr : NUL ∉ x :: xs) (hm : s.mem = A ++ (x :: xs ++ NUL :: T))
    (hp : p = A.length) : matchDelim p d s = .ok (d.bytes.isPrefixOf (x :: xs)) s := by
  cases d with
  | chr b =>
    simp only [matchDelim]
    rw [rd_bind _ (x := x) (A := A) (B := xs ++ NUL :: T) (by simpa using hm) hp]
    simp only [M.pure_apply, Delim.bytes, List.isPrefixOf, Bool.and_true]
    congr 1
    exact BEq.comm
  | str ds => exact strncmpEq_spec T s ds (x :: xs) A p hd hr hm hp

theorem takeWhile_append_dropWhile' (set r : Bytes) :
    r.takeWhile (· ∈ set) ++ r.dropWhile (· ∈ set) = r := List.takeWhile_append_dropWhile

theorem length_tw (set r : Bytes) :
    (r.takeWhile (· ∈ set)).length + (r.dropWhile (· ∈ set)).length = r.length := by
  rw [← List.length_append, takeWhile_append_dropWhile']

section md
variable {c : Cfg} (hc : c.WF) {d : Delim} (hd : NUL ∉ d.bytes) {s : Spl} {A r T : Bytes} {p : Nat}
include hc

/-- `match_delimiter` at the end of the line -/
theorem matchDelimiter_eol (hm : s.mem = A ++ (r ++ NUL :: T)) (hp : p = A.length)
    (h : r.dropWhile (· ∈ c.trimR) = []) : matchDelimiter c d p s = .ok (0, false) s := by
  have hr : r = r.takeWhile (· ∈ c.trimR) := by
    have := takeWhile_append_dropWhile' c.trimR r
    rw [h] at this; simpa using this.symm
  simp only [matchDelimiter]
  rw [M.bind_of_ok (trimIfEnabled_spec c.trimR hc.nul_r hm hp)]
  rw [rd_bind _ (x := NUL) (A := A ++ r) (B := T) (by simpa using hm) (by rw [← hr]; simp [hp])]
  simp

include hd

/-- `match_delimiter` on a delimiter (after spacing) -/
theorem matchDelimiter_delim (hm : s.mem = A ++ (r ++ NUL :: T)) (hp : p = A.length)
    (hr : NUL ∉ r) {x : Byte} {xs : Bytes}
    (h : r.dropWhile (· ∈ c.trimR) = x :: xs) (hpre : d.bytes.isPrefixOf (x :: xs) = true) :
    matchDelimiter c d p s = .ok
      ((r.takeWhile (· ∈ c.trimR)).length + d.bytes.length +
        (((x :: xs).drop d.bytes.length).takeWhile (· ∈ c.trimL)).length, true) s := by
  have hsplit := takeWhile_append_dropWhile' c.trimR r
  rw [h] at hsplit
  have hx0 : NUL ∉ x :: xs := fun hx => hr (by rw [← hsplit]; exact List.mem_append_right _ hx)
  have hm' : s.mem = (A ++ r.takeWhile (· ∈ c.trimR)) ++ (x :: xs ++ NUL :: T) := by
    rw [hm]; conv => lhs; rw [← hsplit]
    simp
  simp only [matchDelimiter]
  rw [M.bind_of_ok (trimIfEnabled_spec c.trimR hc.nul_r hm hp)]
  rw [rd_bind _ (x := x) (A := A ++ r.takeWhile (· ∈ c.trimR)) (B := xs ++ NUL :: T)
    (by simpa using hm') (by simp [hp])]
  rw [if_neg (fun h => hx0 (by simp [h]))]
  rw [M.bind_of_ok (matchDelim_spec d hd hx0 hm' (by simp [hp]))]
  simp only [hpre, Bool.not_true, Bool.false_eq_true, if_false, delimSize_eq]
  obtain ⟨t, ht⟩ := List.isPrefixOf_iff_prefix.mp hpre
  have hdrop : (x :: xs).drop d.bytes.length = t := by rw [← ht]; simp
  have hm'' : s.mem = (A ++ r.takeWhile (· ∈ c.trimR) ++ d.bytes) ++
      ((x :: xs).drop d.bytes.length ++ NUL :: T) := by
    rw [hm', hdrop, ← ht]; simp
  rw [M.bind_of_ok (trimIfEnabled_spec c.trimL hc.nul_l hm'' (by simp [hp]; omega))]
  simp; omega

/-- `match_delimiter` on anything else -/
theorem matchDelimiter_other (hm : s.mem = A ++ (r ++ NUL :: T)) (hp : p = A.length)
    (hr : NUL ∉ r) {x : Byte} {xs : Bytes}
    (h : r.dropWhile (· ∈ c.trimR) = x :: xs) (hpre : d.bytes.isPrefixOf (x :: xs) = false) :
    matchDelimiter c d p s =
      (shiftIfEscaped c (p + (r.takeWhile (· ∈ c.trimR)).length) >>= fun _ =>
        pure (1 + (r.takeWhile (· ∈ c.trimR)).length, false)) s := by
  have hsplit := takeWhile_append_dropWhile' c.trimR r
  rw [h] at hsplit
  have hx0 : NUL ∉ x :: xs := fun hx => hr (by rw [← hsplit]; exact List.mem_append_right _ hx)
  have hm' : s.mem = (A ++ r.takeWhile (· ∈ c.trimR)) ++ (x :: xs ++ NUL :: T) := by
    rw [hm]; conv => lhs; rw [← hsplit]
    simp
  simp only [matchDelimiter]
  rw [M.bind_of_ok (trimIfEnabled_spec c.trimR hc.nul_r hm hp)]
  rw [rd_bind _ (x := x) (A := A ++ r.takeWhile (· ∈ c.trimR)) (B := xs ++ NUL :: T)
    (by simpa using hm') (by simp [hp])]
  rw [if_neg (fun h => hx0 (by simp [h]))]
  rw [M.bind_of_ok (matchDelim_spec d hd hx0 hm' (by simp [hp]))]
  simp only [hpre, Bool.not_false, if_true]
  have : 1 + (p + (r.takeWhile (· ∈ c.trimR)).length) - p = 1 + (r.takeWhile (· ∈ c.trimR)).length := by
    omega
  rw [this]

end md

/-- Where the pieces of a partially read field are in memory: `pre` is everything before the field,
`acc` its decoded content so far (with a gap of `escaped_` junk bytes), `r` the unread text, `T` what is
behind the terminator. -/
def Fld (s : Spl) (pre acc r T : Bytes) : Prop :=
  ∃ a1 g a2 : Bytes,
    s.mem = pre ++ (a1 ++ (g ++ (a2 ++ (r ++ NUL :: T)))) ∧ acc = a1 ++ a2 ∧
    s.begin_ = pre.length ∧ s.curr = pre.length + a1.length ∧ s.escaped = g.length ∧
    s.end_ = pre.length + a1.length + g.length + a2.length

/-- Members that reading a field does not touch; the memory outside the byte range `lo ≤ · < hi` is
unchanged. -/
structure Frame (lo hi : Nat) (s s' : Spl) : Prop where
  gen : s'.gen = s.gen
  lineGen : s'.lineGen = s.lineGen
  resplitting : s'.resplitting = s.resplitting
  len : s'.mem.length = s.mem.length
  pre : s'.mem.take lo = s.mem.take lo
  suf : s'.mem.drop hi = s.mem.drop hi

theorem Frame.refl (lo hi : Nat) (s : Spl) : Frame lo hi s s := ⟨rfl, rfl, rfl, rfl, rfl, rfl⟩
theorem Frame.trans {lo hi : Nat} {s s' s'' : Spl} (h : Frame lo hi s s') (h' : Frame lo hi s' s'') :
    Frame lo hi s s'' :=
  ⟨h'.gen.trans h.gen, h'.lineGen.trans h.lineGen, h'.resplitting.trans h.resplitting,
    h'.len.trans h.len, h'.pre.trans h.pre, h'.suf.trans h.suf⟩
theorem Frame.mono {lo hi lo' hi' : Nat} {s s' : Spl} (h : Frame lo hi s s') (h1 : lo' ≤ lo)
    (h2 : hi ≤ hi') : Frame lo' hi' s s' :=
  ⟨h.gen, h.lineGen, h.resplitting, h.len, by
    have := congrArg (List.take lo') h.pre
    simpa [List.take_take, Nat.min_eq_left h1] using this, by
    have := congrArg (List.drop (hi' - hi)) h.suf
    simp only [List.drop_drop] at this
    rwa [show hi + (hi' - hi) = hi' by omega] at this⟩
/-- the memory is untouched -/
theorem Frame.of_mem {lo hi : Nat} {s s' : Spl} (h1 : s'.gen = s.gen) (h2 : s'.lineGen = s.lineGen)
    (h3 : s'.resplitting = s.resplitting) (h4 : s'.mem = s.mem) : Frame lo hi s s' :=
  ⟨h1, h2, h3, by rw [h4], by rw [h4], by rw [h4]⟩

/-- `shift_and_set_current` closes the gap in front of the unread text. -/
theorem shift_spec {s : Spl} {pre acc r T : Bytes} (h : Fld s pre acc r T) :
    ∃ g' : Bytes, g'.length = s.escaped ∧
      shiftAndSetCurrent s = .ok () { s with
        mem := pre ++ (acc ++ (g' ++ (r ++ NUL :: T)))
        curr := pre.length + acc.length } ∧
      s.end_ = pre.length + acc.length + g'.length := by
  obtain ⟨a1, g, a2, hm, ha, hb, hcu, he, hen⟩ := h
  unfold shiftAndSetCurrent
  by_cases hg : s.escaped > 0
  · simp only [hg, if_true]
    have hn : s.end_ - s.curr - s.escaped = a2.length := by omega
    rw [hn]
    have hlen : s.mem.length = pre.length + (a1.length + (g.length + (a2.length + (r.length + (T.length + 1))))) := by
      rw [hm]; simp
    rw [if_pos (by constructor <;> omega)]
    refine ⟨(g ++ a2).drop a2.length, by simp [he], ?_, by simp [ha]; omega⟩
    congr 2
    · have e1 : s.mem.take s.curr = pre ++ a1 := by
        rw [hm, hcu, ← List.append_assoc, List.take_append_of_le_length (by simp)]
        simp [List.take_of_length_le]
      have e2 : (s.mem.drop (s.curr + s.escaped)).take a2.length = a2 := by
        have : s.mem = (pre ++ a1 ++ g) ++ (a2 ++ (r ++ NUL :: T)) := by simp [hm]
        rw [this, List.drop_append_of_le_length (by simp; omega)]
        rw [List.drop_of_length_le (by simp; omega)]
        simp
      have e3 : s.mem.drop (s.curr + a2.length) = (g ++ a2).drop a2.length ++ (r ++ NUL :: T) := by
        have : s.mem = (pre ++ a1) ++ ((g ++ a2) ++ (r ++ NUL :: T)) := by simp [hm]
        rw [this, hcu]
        rw [show pre.length + a1.length + a2.length = (pre ++ a1).length + a2.length by simp]
        rw [List.drop_append, List.drop_of_length_le (by omega)]
        simp only [Nat.add_sub_cancel_left, List.nil_append]
        rw [List.drop_append_of_le_length (by simp)]
      rw [e1, e2, e3, ha]; simp
    · rw [ha]; simp; omega
  · have hg0 : g = [] := by
      apply List.eq_nil_of_length_eq_zero; omega
    subst hg0
    simp only [hg, if_false]
    refine ⟨[], by simp at he ⊢; omega, ?_, by simp [ha] at *; omega⟩
    simp only [List.nil_append, List.length_nil, Nat.add_zero] at *
    congr 1
    have e1 : s.end_ = pre.length + acc.length := by rw [ha]; simp; omega
    have e2 : s.mem = pre ++ (acc ++ (r ++ NUL :: T)) := by rw [hm, ha]; simp
    rw [e1, ← e2]

end Ssp.Spl
