import Verif.Spec.Cost
import Verif.Proofs.LineCost
import Verif.Props.Line
/-! # C70: the work of reading lines -/
namespace Ssp
open Io

/-- The counting functions do, apart from counting, exactly what the functions of the model do. -/
theorem C70_counting_changes_nothing (env : Env) (p : Option Bytes) (size : Nat) (d : Bytes) (s : Io) :
    (getLineBufferK env p size s).1 = getLine env (.buf p size) s ∧ (getlinePortableK env d s).1 = getLineFile false env d s :=
  ⟨congrFun (erase_getLineBuffer env p size) s, congrFun (erase_getlinePortable env d) s⟩

theorem K.eq_of_erase {σ α : Type} {k : K σ α} {s : σ} {r : Res σ α} (h : (k s).1 = r) : k s = (r, (k s).2) := by rw [← h]

/-- C70, data buffers: reading a line of `k` bytes, whatever the data, the position and the line buffer, takes at least `2 k + 1` and at
most `4 k + 256` steps, the growing of the line buffer included. -/
theorem C70_buffer_is_linear (env : Env) (d : Bytes) (s : Io) (hs : s.n = s.mem.length) :
    match rawLines (d.drop s.curr) with
    | [] => (getLineBufferK env (some d) d.length s).2 = 0
    | l :: _ => 2 * l.length + 1 ≤ (getLineBufferK env (some d) d.length s).2 ∧
        (getLineBufferK env (some d) d.length s).2 ≤ 4 * l.length + 256 := by
  have hspec := getLineBuffer_spec (env := env) (d := d) (s := s) hs
  by_cases h : d.drop s.curr = []
  · rw [h]
    show (getLineBufferK env (some d) d.length s).2 = 0
    unfold getLineBufferK
    rw [K.get_bind, if_pos (List.drop_eq_nil_iff.mp h)]
    rfl
  · rw [if_neg h] at hspec
    rw [rawLines_cons h]
    obtain ⟨J, s', h1, _⟩ := hspec
    rw [← erase_getLineBuffer] at h1
    obtain ⟨a1, _, _, _, _, a6, a7⟩ := getLineBufferK_cost hs (K.eq_of_erase h1)
    refine ⟨a7, ?_⟩
    omega

example : (getLineBufferK ⟨fun _ _ => 7, fun _ => 0⟩ (some (bs "ab\ncd")) 5 {}).2 = 7 := by decide +kernel

theorem rawLines_count (d : Bytes) : (rawLines d).length ≤ d.length := by
  have h : ∀ (ls : List Bytes), (∀ l ∈ ls, l ≠ []) → ls.length ≤ ls.flatten.length := by
    intro ls
    induction ls with
    | nil => intro _; simp
    | cons l ls ih =>
      intro hl
      have h1 := List.length_pos_iff.mpr (hl l (by simp))
      have h2 := ih fun x hx => hl x (by simp [hx])
      simp only [List.length_cons, List.flatten_cons, List.length_append]; omega
  have := h (rawLines d) fun l hl => rawLines_ne_nil hl
  rwa [rawLines_flatten] at this

/-- C70, data buffers: reading all lines of a buffer, one after the other, is linear in its size: at most `5 |data| + 128` steps,
however often the line buffer has to grow. -/
theorem C70_buffer_all_lines (env : Env) (d : Bytes) :
    ∃ n, CountedReads (getLineBufferK env (some d) d.length) {} (rawLines d) n ∧ n ≤ 5 * d.length + 128 := by
  have key : ∀ (k : Nat) (t : Bytes) (s : Io), t.length < k → t = d.drop s.curr → s.n = s.mem.length → (s.n = 0 ∨ 128 ≤ s.n) →
      ∃ n N, CountedReads (getLineBufferK env (some d) d.length) s (rawLines t) n ∧
        n + s.n ≤ 2 * t.length + (rawLines t).length + N ∧ N ≤ max s.n (max 128 (2 * t.length)) := by
    intro k
    induction k with
    | zero => intro t s h; omega
    | succ k ih =>
      intro t s hk ht hs h0
      have hspec := getLineBuffer_spec (env := env) (d := d) (s := s) hs
      rw [← ht] at hspec
      by_cases h : t = []
      · subst h
        have he : getLineBufferK env (some d) d.length s = (.ok none s, 0) := by
          unfold getLineBufferK
          rw [K.get_bind, if_pos (List.drop_eq_nil_iff.mp ht.symm)]
          rfl
        refine ⟨_, s.n, .eof he, ?_, by omega⟩
        simp [rawLines]
      · rw [if_neg h] at hspec
        obtain ⟨J, s', h1, h2, h3, h4, h5⟩ := hspec
        rw [← erase_getLineBuffer] at h1
        obtain ⟨_, a2, a3, a4, a5, a6, a7⟩ := getLineBufferK_cost hs (K.eq_of_erase h1)
        have hpos := List.length_pos_iff.mpr (upToLF_ne h)
        have hlen := congrArg List.length (upToLF_split t)
        rw [List.length_append] at hlen
        obtain ⟨m, N, b1, b2, b3⟩ := ih (t.drop (upToLF t).length) s' (by omega) (by rw [h4, ht, List.drop_drop]) h3 (.inr a5)
        rw [rawLines_cons h]
        refine ⟨_, N, .line (K.eq_of_erase h1) h2 b1, ?_, ?_⟩
        · have := a2 h0
          rw [List.length_cons]
          omega
        · omega
  obtain ⟨n, N, h1, h2, h3⟩ := key (d.length + 1) d {} (by omega) rfl rfl (.inl rfl)
  have := rawLines_count d
  exact ⟨n, h1, by dsimp only at h2 h3; omega⟩

/-- C72, the portable reader of files: reading a line of `L` bytes takes at most `(L / 127 + 1) * (L + 5) + 5 L + 257` steps (`NUL` in
the data is undefined behaviour, C45).

Partial: linear would be without the factor `L / 127 + 1`; it is not, see
`C72_portable_is_quadratic`. -/
theorem C72_portable_partial (env : Env) (d : Bytes) (s : Io) (hd : NUL ∉ d) (hs : s.n = s.mem.length) :
    match rawLines (d.drop s.fpos) with
    | [] => (getlinePortableK env d s).2 ≤ 262
    | l :: _ => (getlinePortableK env d s).2 ≤ (l.length / 127 + 1) * (l.length + 5) + 5 * l.length + 257 := by
  have hspec := getlinePortable_spec (env := env) (d := d) (s := s) hd hs
  have hn : ∀ (r : Option Nat) (s' : Io), getlinePortable env d s = .ok r s' → s'.n ≤ max s.n (max 128 (2 * r.getD 0)) := by
    intro r s' h
    obtain ⟨s2, k1, k2, k3, k4, k5, k6⟩ := portable_start (env := env) hs
    rw [k6] at h
    obtain ⟨g1, g2, g3⟩ := fgetsLoop_n hd _ k5 k1 h
    cases r with
    | none => rw [g1 rfl]; omega
    | some k => have := (g2 k rfl).2; simp only [Option.getD_some]; omega
  by_cases h : d.drop s.fpos = []
  · rw [if_pos h] at hspec
    obtain ⟨J, s', h1, _⟩ := hspec
    have h2 := hn _ _ h1
    rw [← erase_getlinePortable] at h1
    obtain ⟨a1, _⟩ := getlinePortableK_cost hd hs (K.eq_of_erase h1)
    rw [h] at a1 ⊢
    simp only [upToLF, List.length_nil, rawLines, Option.getD_none] at *
    omega
  · rw [if_neg h] at hspec
    obtain ⟨J, s', h1, _⟩ := hspec
    have h2 := hn _ _ h1
    rw [← erase_getlinePortable] at h1
    obtain ⟨a1, _⟩ := getlinePortableK_cost hd hs (K.eq_of_erase h1)
    rw [rawLines_cons h]
    simp only [Option.getD_some] at h2
    omega

/-- Not linear: for every piece of 127 bytes the portable reader looks for the end of the line read so far (`std::strlen`), so that a
line of `L` bytes takes at least `(L * L - 127 L) / 254` steps. -/
theorem C72_portable_is_quadratic (env : Env) (d : Bytes) (s : Io) (hd : NUL ∉ d) (hs : s.n = s.mem.length) {l : Bytes} {ls : List Bytes}
    (hl : rawLines (d.drop s.fpos) = l :: ls) :
    l.length * l.length ≤ 254 * (getlinePortableK env d s).2 + 127 * l.length := by
  have hspec := getlinePortable_spec (env := env) (d := d) (s := s) hd hs
  have h : d.drop s.fpos ≠ [] := by intro h; rw [h] at hl; cases hl
  rw [if_neg h] at hspec
  rw [rawLines_cons h] at hl
  injection hl with hl _
  obtain ⟨J, s', h1, _⟩ := hspec
  rw [← erase_getlinePortable] at h1
  obtain ⟨_, a2⟩ := getlinePortableK_cost hd hs (K.eq_of_erase h1)
  rwa [hl] at a2

/-- So no factor `c` will do: there is a line for which the portable reader takes more than `c` steps per byte. -/
theorem C72_portable_is_not_linear (env : Env) (c : Nat) :
    ∃ d : Bytes, NUL ∉ d ∧ rawLines d = [d] ∧ c * (d.length + 1) < (getlinePortableK env d {}).2 := by
  have hr : ∀ k, rawLines (List.replicate (k + 1) 65) = [List.replicate (k + 1) 65] := by
    intro k
    induction k with
    | zero => rfl
    | succ k ih =>
      rw [List.replicate_succ]
      conv => lhs; unfold rawLines
      rw [if_neg (by decide), ih]
  refine ⟨List.replicate (508 * c + 1000 + 1) 65, by simp [NUL], hr _, ?_⟩
  have h := C72_portable_is_quadratic env (List.replicate (508 * c + 1000 + 1) 65) {} (by simp [NUL]) rfl (hr _)
  generalize (getlinePortableK env (List.replicate (508 * c + 1000 + 1) 65) {}).2 = n at h ⊢
  rw [List.length_replicate] at *
  have e1 : (508 * c + 1000 + 1) * (508 * c + 1000 + 1) = 508 * (c * (508 * c + 1000 + 1)) + 1001 * (508 * c + 1000 + 1) := by
    rw [← Nat.mul_assoc, ← Nat.add_mul]
  have e2 : c * (508 * c + 1000 + 1 + 1) = c * (508 * c + 1000 + 1) + c := by rw [Nat.mul_add, Nat.mul_one]
  omega

end Ssp
