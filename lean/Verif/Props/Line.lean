import Verif.Proofs.Line
/-!
# Properties of the line readers: C44 (data buffer), C45 (portable reader)
-/
namespace Ssp
open Io

/-- `Reads read next ls`: calling `read` again and again on the state delivers the lines `ls`, each NUL terminated in
the line buffer, whose size variable is the size of the block, and then end of file; nothing is undefined. -/
inductive Reads (read : M Io (Option Nat)) : Io → List Bytes → Prop
  | eof {s s' : Io} : read s = .ok none s' → Reads read s []
  | line {s s' : Io} {l T : Bytes} {ls : List Bytes} : read s = .ok (some l.length) s' → s'.mem = l ++ NUL :: T →
      s'.n = s'.mem.length → Reads read s' ls → Reads read s (l :: ls)

theorem reads_of_step {read : M Io (Option Nat)} {P : Bytes → Io → Prop}
    (step : ∀ (t : Bytes) (s : Io), P t s →
      if t = [] then ∃ s', read s = .ok none s'
      else ∃ s' T, read s = .ok (some (upToLF t).length) s' ∧ s'.mem = upToLF t ++ NUL :: T ∧ s'.n = s'.mem.length ∧
        P (t.drop (upToLF t).length) s') :
    ∀ (k : Nat) (t : Bytes) (s : Io), t.length < k → P t s → Reads read s (rawLines t)
  | 0, _, _, h, _ => by omega
  | k + 1, t, s, h, hp => by
    have := step t s hp
    by_cases ht : t = []
    · rw [if_pos ht] at this
      obtain ⟨s', h1⟩ := this
      subst ht
      exact .eof h1
    · rw [if_neg ht] at this
      obtain ⟨s', T, h1, h2, h3, h4⟩ := this
      rw [rawLines_cons ht]
      refine .line h1 h2 h3 (reads_of_step step k _ s' ?_ h4)
      have := List.length_pos_iff.mpr (upToLF_ne ht)
      have := List.length_pos_iff.mpr ht
      simp only [List.length_drop]; omega

/-- C44: one call of `get_line` on a data buffer, for any contents, any position and any line buffer (null, small,
large): with no byte left it is end of file and nothing changes; otherwise it stores exactly the next line (up to and
including the LF, or the rest) with a NUL behind it, returns its length and advances by it.  Every write is inside the
block (the outcome is not `ub`), whose size stays recorded. -/
theorem C44_one_line (env : Env) (d : Bytes) (s : Io) (hs : s.n = s.mem.length) :
    match rawLines (d.drop s.curr) with
    | [] => getLine env (.buf (some d) d.length) s = .ok none s
    | l :: ls => ∃ s' T, getLine env (.buf (some d) d.length) s = .ok (some l.length) s' ∧
        s'.mem = l ++ NUL :: T ∧ s'.n = s'.mem.length ∧ s'.curr = s.curr + l.length ∧ s'.fpos = s.fpos ∧
        rawLines (d.drop s'.curr) = ls := by
  have := getLineBuffer_spec (env := env) (d := d) (s := s) hs
  by_cases h : d.drop s.curr = []
  · rw [if_pos h] at this
    rw [h]; exact this
  · rw [if_neg h] at this
    rw [rawLines_cons h]
    obtain ⟨J, s', h1, h2, h3, h4, h5⟩ := this
    exact ⟨s', _, h1, h2, h3, h4, h5, by rw [h4, List.drop_drop]⟩

/-- C44: reading a data buffer to its end delivers its lines in order, whatever the memory allocator hands out. -/
theorem C44_all_lines (env : Env) (d : Bytes) : Reads (getLine env (.buf (some d) d.length)) {} (rawLines d) := by
  refine reads_of_step (P := fun t s => t = d.drop s.curr ∧ s.n = s.mem.length) ?_ (d.length + 1) d {} (by omega) ⟨rfl, rfl⟩
  rintro t s ⟨rfl, hs⟩
  have := getLineBuffer_spec (env := env) (d := d) (s := s) hs
  split
  · rename_i h
    rw [if_pos h] at this
    exact ⟨s, this⟩
  · rename_i h
    rw [if_neg h] at this
    obtain ⟨J, s', h1, h2, h3, h4, h5⟩ := this
    exact ⟨s', _, h1, h2, h3, by rw [h4, List.drop_drop], h3⟩

/-- The lines put together are the data: nothing is lost, added or reordered. -/
theorem C44_lines_are_the_data (d : Bytes) : (rawLines d).flatten = d := rawLines_flatten d

/-- and a line contains LF only as its last byte. -/
theorem C44_one_LF (d l : Bytes) (h : l ∈ rawLines d) : l ≠ [] ∧ LF ∉ l.dropLast := ⟨rawLines_ne_nil h, rawLines_inner h⟩

/-- a case with two lines, the second one longer than the initial buffer -/
example : ∃ a b : Bytes, rawLines (bs "a,b\n" ++ List.replicate 300 120) = [a, b] ∧ b.length = 300 := by
  refine ⟨bs "a,b\n", List.replicate 300 120, by decide +kernel, by decide +kernel⟩

/-- C45: one call of the portable reader on data without NUL bytes returns what POSIX `getline` returns, leaves the
same line (NUL terminated) and the same file position, and makes no access outside its buffers. -/
theorem C45_same_as_getline (env env' : Env) (d : Bytes) (s s' : Io) (hd : NUL ∉ d) (hs : s.n = s.mem.length)
    (hs' : s'.n = s'.mem.length) (hp : s.fpos = s'.fpos) :
    match rawLines (d.drop s.fpos) with
    | [] => (∃ t, getlinePosix env d s = .ok none t ∧ t.fpos = s.fpos) ∧
        (∃ t, getlinePortable env' d s' = .ok none t ∧ t.fpos = s.fpos)
    | l :: _ => (∃ t T, getlinePosix env d s = .ok (some l.length) t ∧ t.mem = l ++ NUL :: T ∧ t.n = t.mem.length ∧
          t.fpos = s.fpos + l.length) ∧
        (∃ t T, getlinePortable env' d s' = .ok (some l.length) t ∧ t.mem = l ++ NUL :: T ∧ t.n = t.mem.length ∧
          t.fpos = s.fpos + l.length) := by
  have h1 := getlinePosix_spec (env := env) (d := d) (s := s) hs
  have h2 := getlinePortable_spec (env := env') (s := s') hd hs'
  rw [← hp] at h2
  by_cases h : d.drop s.fpos = []
  · rw [if_pos h] at h1 h2
    rw [h]
    obtain ⟨_, t, a1, _, _, _, a2⟩ := h1
    obtain ⟨_, t', b1, _, _, _, b2⟩ := h2
    exact ⟨⟨t, a1, a2⟩, ⟨t', b1, b2⟩⟩
  · rw [if_neg h] at h1 h2
    rw [rawLines_cons h]
    obtain ⟨_, t, a1, a2, a3, _, a4⟩ := h1
    obtain ⟨_, t', b1, b2, b3, _, b4⟩ := h2
    exact ⟨⟨t, _, a1, a2, a3, a4⟩, ⟨t', _, b1, b2, b3, b4⟩⟩

/-- C45: reading a whole file with the portable reader delivers its lines in order. -/
theorem C45_all_lines (env : Env) (d : Bytes) (hd : NUL ∉ d) :
    Reads (getLine env (.file false d)) {} (rawLines d) := by
  refine reads_of_step (P := fun t s => t = d.drop s.fpos ∧ s.n = s.mem.length) ?_ (d.length + 1) d {} (by omega) ⟨rfl, rfl⟩
  rintro t s ⟨rfl, hs⟩
  split
  · rename_i h
    obtain ⟨_, s', h1, _⟩ := getLine_eof (env := env) (src := .file false d) (s := s) (fun _ => hd) hs h
    exact ⟨s', h1⟩
  · rename_i h
    obtain ⟨J, s', h1, h2, h3, h4, h5⟩ := getLine_line (env := env) (src := .file false d) (s := s) (fun _ => hd) hs h
    exact ⟨s', _, h1, h2, h3, h5.symm, h3⟩

/-- and so does POSIX `getline`, on any data. -/
theorem C45_posix_all_lines (env : Env) (d : Bytes) : Reads (getLine env (.file true d)) {} (rawLines d) := by
  refine reads_of_step (P := fun t s => t = d.drop s.fpos ∧ s.n = s.mem.length) ?_ (d.length + 1) d {} (by omega) ⟨rfl, rfl⟩
  rintro t s ⟨rfl, hs⟩
  split
  · rename_i h
    obtain ⟨_, s', h1, _⟩ := getLine_eof (env := env) (src := .file true d) (s := s) (fun h => by cases h) hs h
    exact ⟨s', h1⟩
  · rename_i h
    obtain ⟨J, s', h1, h2, h3, h4, h5⟩ := getLine_line (env := env) (src := .file true d) (s := s) (fun h => by cases h) hs h
    exact ⟨s', _, h1, h2, h3, h5.symm, h3⟩

/-- Why the restriction: on a line that begins with NUL the portable reader reads in front of its buffer, whatever
follows. -/
theorem C45_nul_is_undefined (env : Env) (rest : Bytes) (s : Io) (hs : s.n = s.mem.length) (hp : s.fpos = 0) :
    getlinePortable env (NUL :: rest) s = .ub := by
  unfold getlinePortable
  simp only [M.get_bind]
  obtain ⟨J, s1, e1, e2, e3, e4, e5, e6, e7⟩ := reallocIf_spec env (s.mem = [] ∨ s.n < initialSize) initialSize s
    (by rintro (h | h)
        · simp [h]
        · omega) hs
  have hlen : 128 ≤ s1.mem.length := by
    unfold Sized at e3
    by_cases h : s.mem = [] ∨ s.n < initialSize
    · have := e6 h; simp [initialSize] at this; omega
    · have := e7 h; simp [initialSize] at h; omega
  have hwr : wr 0 NUL s1 = .ok () { s1 with mem := s1.mem.set 0 NUL } := wr_ok (by omega)
  rw [M.bind_of_ok e1, M.bind_of_ok hwr]
  unfold fgetsLoop
  have hf0 : s1.fpos = 0 := e5.trans hp
  have hne : (NUL :: rest).drop s1.fpos ≠ [] := by rw [hf0]; simp
  rw [M.bind_of_ok (fgets_spec (s := { s1 with mem := s1.mem.set 0 NUL }) hne)]
  have hup : upToLF ((NUL :: rest).drop s1.fpos) = NUL :: upToLF rest := by
    rw [hf0]; simp only [List.drop_zero, upToLF]; rw [if_neg (by decide)]
  simp only [hup, List.take_succ_cons]
  generalize List.take 126 (upToLF rest) = u
  obtain ⟨z, m, hm⟩ : ∃ z m, s1.mem = z :: m := by
    cases h : s1.mem with
    | nil => rw [h] at hlen; simp at hlen
    | cons z m => exact ⟨z, m, rfl⟩
  rw [M.bind_of_ok (a := 0) (s' := { s1 with mem := s1.mem.set 0 NUL, fpos := s1.fpos + (NUL :: u).length })
    (by simp only [strlenLine, hm, List.set_cons_zero]
        rw [show NUL :: m = [] ++ NUL :: m from rfl, strlen_line (by simp)]; rfl)]
  rw [show (NUL :: u) ++ [NUL] = [] ++ NUL :: (u ++ [NUL]) from rfl, strlen_line (by simp)]
  simp only [M.get_bind, List.length_nil, Nat.add_zero]
  have hn1 : ¬ s1.n ≤ 0 := by unfold Sized at e3; omega
  rw [M.bind_of_ok (a := ()) (s' := { s1 with mem := s1.mem.set 0 NUL, fpos := s1.fpos + (NUL :: u).length })
    (by simp [reallocIf]; omega)]
  rw [M.bind_of_ok (a := ()) (s' := { s1 with mem := s1.mem.set 0 NUL, fpos := s1.fpos + (NUL :: u).length })
    (by simp [copyTo])]
  rw [M.bind_of_ok (wr_ok (by simp; omega))]
  rfl

end Ssp
