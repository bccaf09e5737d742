import Verif.Spec.ReadError
import Verif.Props.ParserGrow
import Verif.Props.Line
/-!
# A file that cannot be read to its end (C68)
-/
namespace Ssp
open Io

theorem openTail_eq (t : Bytes) : ∃ C, t = C ++ openTail t ∧ LF ∉ openTail t ∧ (C = [] ∨ C.getLast? = some LF) := by
  refine ⟨(t.reverse.dropWhile (· ≠ LF)).reverse, ?_, ?_, ?_⟩
  · rw [openTail, ← List.reverse_append, List.takeWhile_append_dropWhile, List.reverse_reverse]
  · intro h
    rw [openTail, List.mem_reverse] at h
    have := List.all_eq_true.mp (List.all_takeWhile (p := fun x => decide (x ≠ LF)) (l := t.reverse)) _ h
    simp at this
  · cases hd : t.reverse.dropWhile (· ≠ LF) with
    | nil => exact .inl rfl
    | cons z zs =>
      right
      have := List.head?_dropWhile_not (p := (· ≠ LF)) t.reverse
      rw [hd] at this
      simp only [List.head?_cons] at this
      rw [List.getLast?_reverse]
      simpa using this

/-- a file up to the failure: complete lines, full pieces of the line that cannot be read to its end, and the rest -/
theorem readable_eq (b : FailingFile) : ∃ C P q : Bytes, b.data.take b.bad = C ++ P ++ q ∧ b.readable false = C ++ P ∧
    (C = [] ∨ C.getLast? = some LF) ∧ LF ∉ P ∧ LF ∉ q ∧ P.length % 127 = 0 ∧ q.length < 127 := by
  obtain ⟨C, h1, h2, h3⟩ := openTail_eq (b.data.take b.bad)
  have hr : b.readable false = (b.data.take b.bad).take ((b.data.take b.bad).length - (openTail (b.data.take b.bad)).length % 127) := rfl
  rw [hr]
  generalize hA : b.data.take b.bad = A at *
  generalize hq : openTail A = t at *
  have hm : t.length % 127 < 127 := Nat.mod_lt _ (by decide)
  have hle : t.length % 127 ≤ t.length := Nat.mod_le _ _
  refine ⟨C, t.take (t.length - t.length % 127), t.drop (t.length - t.length % 127), ?_, ?_, h3, fun h => h2 (List.mem_of_mem_take h),
    fun h => h2 (List.mem_of_mem_drop h), ?_, ?_⟩
  · rw [List.append_assoc, List.take_append_drop]; exact h1
  · rw [h1, List.length_append, show C.length + t.length - t.length % 127 = C.length + (t.length - t.length % 127) by omega]
    exact List.take_length_add_append ..
  · rw [List.length_take, Nat.min_eq_left (by omega)]
    omega
  · rw [List.length_drop]; omega

theorem upToLF_noLF {t : Bytes} (h : LF ∉ t) : upToLF t = t := by
  have := upToLF_append (r := []) h
  simpa [upToLF] using this

/-- where `fgets` may begin to read -/
def Spot (C P : Bytes) (p : Nat) : Prop := p ≤ C.length ∨ (p ≤ (C ++ P).length ∧ (p - C.length) % 127 = 0)

theorem fgets_failing {b : FailingFile} {C P q : Bytes} (h1 : b.data.take b.bad = C ++ P ++ q)
    (h3 : C = [] ∨ C.getLast? = some LF) (h4 : LF ∉ P) (h5 : LF ∉ q) (h6 : P.length % 127 = 0) (h7 : q.length < 127)
    {s : Io} (hp : Spot C P s.fpos) :
    (fgetsFailing b s = .ok none s ∧ fgets (C ++ P) s = .ok none s) ∨
    ∃ chunk, chunk ≠ [] ∧ fgetsFailing b s = .ok (some (chunk ++ [NUL])) { s with fpos := s.fpos + chunk.length } ∧
      fgets (C ++ P) s = .ok (some (chunk ++ [NUL])) { s with fpos := s.fpos + chunk.length } ∧
      Spot C P (s.fpos + chunk.length) ∧ s.fpos + chunk.length ≤ (C ++ P).length := by
  have hE : ∀ t, (C ++ P ++ q).drop s.fpos = t → fgetsFailing b s =
      if ((upToLF t).take 127).getLast? = some LF ∨ ((upToLF t).take 127).length = 127 then
        .ok (some ((upToLF t).take 127 ++ [NUL])) { s with fpos := s.fpos + ((upToLF t).take 127).length }
      else .ok none s := by
    intro t ht
    unfold fgetsFailing
    simp only [M.get_bind, initialSize, Nat.add_one_sub_one, upToLF_take, h1, ht]
    split <;> rfl
  by_cases hc : s.fpos < C.length
  · -- inside the complete lines
    right
    have hne : C.drop s.fpos ≠ [] := by
      intro h; have := List.drop_eq_nil_iff.mp h; omega
    have hlf : LF ∈ C.drop s.fpos := by
      rcases h3 with h3 | h3
      · rw [h3] at hc; simp at hc
      · have : (C.drop s.fpos).getLast? = some LF := by
          rw [List.getLast?_drop, if_neg (by omega)]; exact h3
        exact List.mem_of_getLast? this
    have hdrop : ∀ e, (C ++ e).drop s.fpos = C.drop s.fpos ++ e := fun e => List.drop_append_of_le_length (by omega)
    obtain ⟨u1, u2⟩ := upToLF_grow (e := P) hlf
    obtain ⟨v1, v2⟩ := upToLF_grow (e := P ++ q) hlf
    obtain ⟨r, hr⟩ := upToLF_prefix (C.drop s.fpos)
    have hlen := congrArg List.length hr
    simp only [List.length_drop, List.length_append] at hlen
    have hcne : (upToLF (C.drop s.fpos)).take 127 ≠ [] := by
      have := upToLF_ne hne
      cases hx : upToLF (C.drop s.fpos) with
      | nil => exact absurd hx this
      | cons => simp
    refine ⟨(upToLF (C.drop s.fpos)).take 127, hcne, ?_, ?_, .inl ?_, ?_⟩
    · rw [hE _ (by rw [List.append_assoc, hdrop]), v1, if_pos]
      by_cases hl : 127 ≤ (upToLF (C.drop s.fpos)).length
      · right; rw [List.length_take]; omega
      · left
        rw [List.take_of_length_le (by omega)]
        false_or_by_contra
        rename_i hcon
        have := chunk_noLF (t := C.drop s.fpos) (k := (upToLF (C.drop s.fpos)).length) (by rw [List.take_length]; exact hcon)
        rw [List.take_length] at this
        exact this u2
    · rw [fgets_spec (by rw [hdrop]; simp [hne]), hdrop, u1]
    · rw [List.length_take]; omega
    · rw [List.length_take, List.length_append]; omega
  · have hq : s.fpos ≤ (C ++ P).length ∧ (s.fpos - C.length) % 127 = 0 := by
      rcases hp with hp | hp
      · have : s.fpos = C.length := by omega
        rw [this]; simp
      · exact hp
    obtain ⟨hq1, hq2⟩ := hq
    rw [List.length_append] at hq1
    have hd1 : (C ++ P).drop s.fpos = P.drop (s.fpos - C.length) := by
      rw [List.drop_append, List.drop_eq_nil_of_le (by omega)]; rfl
    have hd2 : (C ++ P ++ q).drop s.fpos = P.drop (s.fpos - C.length) ++ q := by
      rw [List.drop_append_of_le_length (by simp; omega), hd1]
    have hn1 : LF ∉ P.drop (s.fpos - C.length) := fun h => h4 (List.mem_of_mem_drop h)
    have hn2 : LF ∉ P.drop (s.fpos - C.length) ++ q := by
      intro h; rcases List.mem_append.mp h with h | h
      · exact hn1 h
      · exact h5 h
    by_cases he : s.fpos - C.length = P.length
    · left
      have hnil : P.drop (s.fpos - C.length) = [] := List.drop_eq_nil_of_le (by omega)
      rw [hnil] at hd1 hd2
      refine ⟨?_, fgets_eof hd1⟩
      rw [hE _ hd2, List.nil_append, upToLF_noLF h5, if_neg]
      rintro (h | h)
      · exact h5 (List.mem_of_mem_take (List.mem_of_getLast? h))
      · rw [List.length_take] at h; omega
    · right
      have hl : 127 ≤ (P.drop (s.fpos - C.length)).length := by rw [List.length_drop]; omega
      refine ⟨(P.drop (s.fpos - C.length)).take 127, ?_, ?_, ?_, .inr ⟨?_, ?_⟩, ?_⟩
      · intro h
        have := congrArg List.length h
        rw [List.length_take] at this
        simp at this; simp at hl; omega
      · have ht : (P.drop (s.fpos - C.length) ++ q).take 127 = (P.drop (s.fpos - C.length)).take 127 := by
          rw [List.take_append_of_le_length hl]
        rw [hE _ hd2, upToLF_noLF hn2, ht, if_pos (.inr (by rw [List.length_take]; omega))]
      · rw [fgets_spec (by rw [hd1]; intro h; rw [h] at hl; simp at hl), hd1, upToLF_noLF hn1]
      · rw [List.length_take, List.length_append]; rw [List.length_drop] at hl ⊢; omega
      · rw [List.length_take, Nat.min_eq_left hl]; omega
      · rw [List.length_take, List.length_append]; rw [List.length_drop] at hl ⊢; omega

/-- the operation leaves the position in the file alone -/
def KeepsFpos {α : Type} (m : M Io α) : Prop := ∀ s a s', m s = .ok a s' → s'.fpos = s.fpos

theorem bind_congr_fpos {α β : Type} {m : M Io α} (hm : KeepsFpos m) {f g : α → M Io β} {s : Io}
    (h : ∀ a s', s'.fpos = s.fpos → f a s' = g a s') : (m >>= f) s = (m >>= g) s := by
  simp only [M.bind_apply]
  cases hs : m s with
  | ok a s' => exact h a s' (hm _ _ _ hs)
  | _ => rfl

theorem keeps_reallocIf (env : Env) (p : Prop) [Decidable p] (k : Nat) : KeepsFpos (reallocIf env p k) := by
  intro s a s' h
  unfold reallocIf realloc at h
  split at h
  · cases h; rfl
  · cases h; rfl

theorem keeps_wr (p : Nat) (b : Byte) : KeepsFpos (wr p b) := by
  intro s a s' h
  unfold wr at h
  split at h <;> cases h
  rfl

theorem keeps_rd (p : Nat) : KeepsFpos (rd p) := by
  intro s a s' h
  unfold rd at h
  split at h <;> cases h
  rfl

theorem keeps_strlen : KeepsFpos strlenLine := by
  intro s a s' h
  unfold strlenLine at h
  split at h <;> cases h
  rfl

theorem keeps_copy (p : Nat) (t : Bytes) : KeepsFpos (copyTo p t) := by
  intro s a s' h
  unfold copyTo at h
  split at h <;> cases h
  rfl

theorem keeps_get : KeepsFpos (M.get : M Io Io) := by
  intro s a s' h
  cases h; rfl

theorem fgetsLoop_failing {env : Env} {b : FailingFile} {C P q : Bytes} (h1 : b.data.take b.bad = C ++ P ++ q)
    (h3 : C = [] ∨ C.getLast? = some LF) (h4 : LF ∉ P) (h5 : LF ∉ q) (h6 : P.length % 127 = 0) (h7 : q.length < 127) :
    ∀ (f g used : Nat) (s : Io), Spot C P s.fpos → ((C ++ P).drop s.fpos).length < f → ((C ++ P).drop s.fpos).length < g →
    fgetsLoopFailing env b f used s = fgetsLoop env (C ++ P) g used s := by
  intro f
  induction f with
  | zero => intro g used s _ h; omega
  | succ f ih =>
    intro g used s hp hf hg
    cases g with
    | zero => omega
    | succ g =>
      unfold fgetsLoopFailing fgetsLoop
      rcases fgets_failing h1 h3 h4 h5 h6 h7 hp with ⟨e1, e2⟩ | ⟨chunk, hne, e1, e2, e3, e4⟩
      · rw [M.bind_of_ok e1, M.bind_of_ok e2]
      · rw [M.bind_of_ok e1, M.bind_of_ok e2]
        dsimp only
        have hpos := List.length_pos_iff.mpr hne
        refine bind_congr_fpos keeps_strlen fun u s1 k1 => ?_
        cases strlen (chunk ++ [NUL]) with
        | none => rfl
        | some bu =>
          dsimp only
          refine bind_congr_fpos keeps_get fun _ s2 k2 => bind_congr_fpos (keeps_reallocIf _ _ _) fun _ s3 k3 =>
            bind_congr_fpos (keeps_copy _ _) fun _ s4 k4 => bind_congr_fpos (keeps_wr _ _) fun _ s5 k5 => ?_
          split
          · rfl
          · refine bind_congr_fpos (keeps_rd _) fun c s6 k6 => ?_
            split
            · rfl
            · have hs : s6.fpos = s.fpos + chunk.length := by rw [k6, k5, k4, k3, k2, k1]
              refine ih g _ s6 (by rw [hs]; exact e3) ?_ ?_
              · rw [hs]; rw [List.length_drop] at hf ⊢; omega
              · rw [hs]; rw [List.length_drop] at hg ⊢; omega

/-- the begin of a line -/
theorem spot_of_line {C P : Bytes} (h4 : LF ∉ P) (h6 : P.length % 127 = 0) (n : Nat) :
    Spot C P ((rawLines (C ++ P)).take n).flatten.length := by
  generalize hR : rawLines (C ++ P) = L
  have hfl : L.flatten = C ++ P := by rw [← hR]; exact rawLines_flatten _
  have hsplit : (L.take n).flatten ++ (L.drop n).flatten = C ++ P := by
    rw [← List.flatten_append, List.take_append_drop, hfl]
  by_cases hn : L.length ≤ n
  · right
    rw [List.take_of_length_le hn, hfl]
    refine ⟨Nat.le_refl _, by simp only [List.length_append, Nat.add_sub_cancel_left]; exact h6⟩
  · left
    cases n with
    | zero => simp
    | succ n =>
      have hlf := rawLines_lf (C ++ P) (i := n) (l := L[n]) (by rw [hR]; exact List.getElem?_eq_getElem (by omega)) (by rw [hR]; omega)
      have htk : L.take (n + 1) = L.take n ++ [L[n]] := by
        rw [List.take_add_one, List.getElem?_eq_getElem (by omega)]; rfl
      have hlast : ((L.take (n + 1)).flatten).getLast? = some LF := by
        rw [htk, List.flatten_append, List.getLast?_append]
        simp [hlf]
      generalize (L.take (n + 1)).flatten = A at *
      generalize (L.drop (n + 1)).flatten = B at *
      false_or_by_contra
      rename_i hcon
      have hA : A = C ++ P.take (A.length - C.length) := by
        have h := congrArg (List.take A.length) hsplit
        rw [List.take_left' rfl, List.take_append, List.take_of_length_le (by omega : C.length ≤ A.length)] at h
        exact h
      have : LF ∈ P.take (A.length - C.length) := by
        rw [hA, List.getLast?_append] at hlast
        cases hx : (P.take (A.length - C.length)).getLast? with
        | none =>
          have hz := List.getLast?_eq_none_iff.mp hx
          rw [hz] at hA
          have := congrArg List.length hA
          simp at this; omega
        | some z =>
          rw [hx] at hlast
          cases hlast
          exact List.mem_of_getLast? hx
      exact h4 (List.mem_of_mem_take this)

/-- C68: `get_line` on a file that cannot be read to its end does, at the begin of every line, exactly what it does on a file
that ends there (`FailingFile.readable`): the failure is not told from the end of the file. -/
theorem C68_same_as_shorter_file (env : Env) (b : FailingFile) (unix : Bool) (s : Io) (h : b.AtLine unix s) :
    getLineFailing unix env b s = getLine env (.file unix (b.readable unix)) s := by
  obtain ⟨n, hn⟩ := h
  cases unix with
  | true => rfl
  | false =>
    obtain ⟨C, P, q, h1, h2, h3, h4, h5, h6, h7⟩ := readable_eq b
    rw [h2] at hn ⊢
    have hspot := spot_of_line (C := C) h4 h6 n
    rw [← hn] at hspot
    have key : getlinePortableFailing env b s = getlinePortable env (C ++ P) s := by
      unfold getlinePortableFailing getlinePortable
      refine bind_congr_fpos keeps_get fun _ s2 k2 => bind_congr_fpos (keeps_reallocIf _ _ _) fun _ s3 k3 =>
        bind_congr_fpos (keeps_wr _ _) fun _ s4 k4 => ?_
      refine fgetsLoop_failing h1 h3 h4 h5 h6 h7 _ _ _ _ (by rw [k4, k3, k2]; exact hspot) ?_ ?_
      · rw [List.length_drop]
        have := congrArg List.length h1
        simp only [List.length_take, List.length_append] at this ⊢
        omega
      · rw [List.length_drop]; omega
    show (getlinePortableFailing env b >>= _) s = (getlinePortable env (C ++ P) >>= _) s
    simp only [M.bind_apply, key]

theorem atLine_of {b : FailingFile} {unix : Bool} {s : Io} {n : Nat}
    (h : rawLines ((b.readable unix).drop s.fpos) = (rawLines (b.readable unix)).drop n) (hle : s.fpos ≤ (b.readable unix).length) :
    b.AtLine unix s := by
  refine ⟨n, ?_⟩
  have h1 := congrArg (fun l => l.flatten.length) h
  simp only [rawLines_flatten, List.length_drop] at h1
  have h2 : ((rawLines (b.readable unix)).take n).flatten.length + ((rawLines (b.readable unix)).drop n).flatten.length =
      (b.readable unix).length := by
    rw [← List.length_append, ← List.flatten_append, List.take_append_drop, rawLines_flatten]
  omega

/-- C68: reading such a file delivers its lines up to the failure, then the part of the next line that could be read - as a
whole line -, then the end of the file. -/
theorem C68_all_lines (env : Env) (b : FailingFile) (unix : Bool) (h0 : unix = false → NUL ∉ b.data) :
    Reads (getLineFailing unix env b) {} (rawLines (b.readable unix)) := by
  have hf : (Src.file unix (b.readable unix)).Fine := by
    intro hu hm
    refine h0 hu ?_
    unfold FailingFile.readable at hm
    rw [hu] at hm
    simp only [Bool.false_eq_true, if_false] at hm
    exact List.mem_of_mem_take (List.mem_of_mem_take hm)
  refine reads_of_step (P := fun t s => t = (b.readable unix).drop s.fpos ∧ s.n = s.mem.length ∧ s.fpos ≤ (b.readable unix).length ∧
    ∃ n, rawLines t = (rawLines (b.readable unix)).drop n) ?_ ((b.readable unix).length + 1) _ {} (by omega)
    ⟨rfl, rfl, Nat.zero_le _, 0, rfl⟩
  rintro t s ⟨rfl, hs, hle, n, hn⟩
  rw [C68_same_as_shorter_file env b unix s (atLine_of hn hle)]
  split
  · rename_i h
    obtain ⟨_, s', h1, _⟩ := getLine_eof (env := env) (src := .file unix (b.readable unix)) (s := s) hf hs h
    exact ⟨s', h1⟩
  · rename_i h
    obtain ⟨J, s', h1, h2, h3, _, h5⟩ := getLineFile_line (env := env) (s := s) hf hs h
    refine ⟨{ s' with curr := advance s'.curr (some (upToLF ((b.readable unix).drop s.fpos)).length) }, _, ?_, h2, h3, ?_, h3, ?_, n + 1, ?_⟩
    · rw [getLine_file, M.bind_of_ok h1]; rfl
    · show _ = (b.readable unix).drop s'.fpos
      rw [h5, List.drop_drop]
    · show s'.fpos ≤ _
      rw [h5]
      obtain ⟨r, hr⟩ := upToLF_prefix ((b.readable unix).drop s.fpos)
      have := congrArg List.length hr
      simp only [List.length_drop, List.length_append] at this
      omega
    · rw [rawLines_cons h] at hn
      have := congrArg List.tail hn
      rw [List.tail_cons, List.tail_drop] at this
      exact this

theorem rawLines_complete (r : Bytes) : ∀ (n : Nat) (C : Bytes), C.length < n → (C = [] ∨ C.getLast? = some LF) →
    rawLines (C ++ r) = rawLines C ++ rawLines r ∧ (rawLines C).length = C.count LF := by
  intro n
  induction n with
  | zero => intro C h; omega
  | succ n ih =>
    intro C hn hC
    by_cases hne : C = []
    · subst hne; exact ⟨by simp [rawLines], by simp [rawLines]⟩
    · have hl : C.getLast? = some LF := hC.resolve_left hne
      obtain ⟨u1, u2⟩ := upToLF_grow (e := r) (List.mem_of_getLast? hl)
      have hsplit := upToLF_split C
      generalize hC' : C.drop (upToLF C).length = C' at hsplit
      have hpos := List.length_pos_iff.mpr (upToLF_ne hne)
      have hlen := congrArg List.length hsplit
      rw [List.length_append] at hlen
      have hc' : C' = [] ∨ C'.getLast? = some LF := by
        by_cases h : C' = []
        · exact .inl h
        · right
          rw [hsplit, List.getLast?_append] at hl
          cases hx : C'.getLast? with
          | none => exact absurd (List.getLast?_eq_none_iff.mp hx) h
          | some z => rw [hx] at hl; exact hl
      obtain ⟨i1, i2⟩ := ih C' (by omega) hc'
      have hcount : (upToLF C).count LF = 1 := by
        have h1 : LF ∉ (upToLF C).dropLast := by
          have := rawLines_inner (t := C) (l := upToLF C) (by rw [rawLines_cons hne]; simp)
          exact this
        have h2 : (upToLF C).getLast? = some LF := by
          false_or_by_contra
          rename_i hcon
          have := chunk_noLF (t := C) (k := (upToLF C).length) (by rw [List.take_length]; exact hcon)
          rw [List.take_length] at this
          exact this u2
        obtain ⟨ys, h3⟩ := List.getLast?_eq_some_iff.mp h2
        rw [h3, List.dropLast_concat] at h1
        rw [h3, List.count_append, List.count_eq_zero.mpr h1]
        simp
      refine ⟨?_, ?_⟩
      · have hne' : C ++ r ≠ [] := by simp [hne]
        rw [rawLines_cons hne', rawLines_cons hne, u1, hC',
          show (C ++ r).drop (upToLF C).length = C' ++ r by
            rw [List.drop_append_of_le_length (by omega), hC'], i1]
        rfl
      · rw [rawLines_cons hne, hC', List.length_cons, i2]
        conv => rhs; rw [hsplit, List.count_append, hcount]
        omega

/-- the file goes on behind what is read of it, by the rest of a line if that line is not read to its end -/
theorem readable_parts (b : FailingFile) (unix : Bool) : ∃ C t e : Bytes, b.readable unix = C ++ t ∧ b.data = C ++ t ++ e ∧
    (C = [] ∨ C.getLast? = some LF) ∧ LF ∉ t := by
  cases unix with
  | true =>
    obtain ⟨C, h1, h2, h3⟩ := openTail_eq (b.data.take b.bad)
    exact ⟨C, _, b.data.drop b.bad, h1, by rw [← h1, List.take_append_drop], h3, h2⟩
  | false =>
    obtain ⟨C, P, q, h1, h2, h3, h4, _⟩ := readable_eq b
    exact ⟨C, P, q ++ b.data.drop b.bad, h2, by rw [← List.append_assoc, ← h1, List.take_append_drop], h3, h4⟩

/-- C68: the lines that are delivered are the first lines of the file, except that the last one of them may be the begin of a
line of the file only. -/
theorem C68_lines_of_the_file (b : FailingFile) (unix : Bool) :
    (rawLines (b.readable unix)).take ((b.readable unix).count LF) = (rawLines b.data).take ((b.readable unix).count LF) ∧
    (rawLines (b.readable unix)).length ≤ (b.readable unix).count LF + 1 ∧
    ∀ l, (rawLines (b.readable unix))[(b.readable unix).count LF]? = some l →
      ∃ l', (rawLines b.data)[(b.readable unix).count LF]? = some l' ∧ l <+: l' := by
  obtain ⟨C, t, e, h1, h2, h3, h4⟩ := readable_parts b unix
  obtain ⟨k1, k2⟩ := rawLines_complete t _ C (Nat.lt_succ_self _) h3
  obtain ⟨k3, _⟩ := rawLines_complete (t ++ e) _ C (Nat.lt_succ_self _) h3
  rw [h1, h2, List.append_assoc, k1, k3, List.count_append, List.count_eq_zero.mpr h4, Nat.add_zero, ← k2]
  have ht : rawLines t = if t = [] then [] else [t] := by
    by_cases h : t = []
    · rw [h]; rfl
    · rw [rawLines_cons h, upToLF_noLF h4, if_neg h]; simp [rawLines]
  refine ⟨by simp, ?_, ?_⟩
  · rw [List.length_append, ht]; split <;> simp
  · intro l hl
    rw [List.getElem?_append_right (Nat.le_refl _), Nat.sub_self, ht] at hl
    by_cases h : t = []
    · rw [if_pos h] at hl; cases hl
    · rw [if_neg h] at hl
      cases hl
      refine ⟨upToLF (t ++ e), ?_, ?_⟩
      · rw [List.getElem?_append_right (Nat.le_refl _), Nat.sub_self, rawLines_cons (by simp [h])]; rfl
      · rw [upToLF_append h4]; exact List.prefix_append _ _

/-- C68.  Calls on a parser of a file that cannot be read to its end return just what they return for the intact file - the
same values, errors, exceptions, `eof()`, `line()` and `position()` -, as long as the last line that can be read to its end was
not passed.  (For the rest see `C68_failure_is_silent`: the full property, that the failure is reported, is false.) -/
theorem C68_before_the_failure_partial {x : Ctx} {b : FailingFile} {unix : Bool} (hs : x.src = .file unix (b.readable unix))
    (h0 : unix = false → NUL ∉ b.data) {s0 s : Parser} (hc : Parser.Created x s0) {ops : List Op} {os : List Obs}
    (h : Parser.run x ops s0 = some (os, s)) (hl : s.line < (b.readable unix).count LF) :
    Parser.Created { x with src := .file unix b.data } s0 ∧ Parser.run { x with src := .file unix b.data } ops s0 = some (os, s) := by
  obtain ⟨C, t, e, h1, h2, _⟩ := readable_parts b unix
  refine C63_appended ?_ ?_ hc h (by rw [hs]; exact hl)
  · rw [hs, h2, h1]; exact .file
  · rw [hs]
    intro hu hm
    refine h0 hu ?_
    rw [h2, ← h1]
    exact List.mem_append_left _ hm

namespace Demo

/-- a parser of a file that cannot be read to its end -/
def ctxF (c : Cfg) (unix : Bool) (b : FailingFile) : Ctx := { ctx c "" with src := .file unix (b.readable unix) }

/-- newly made -/
def startF (c : Cfg) (unix : Bool) (b : FailingFile) : Parser :=
  match Parser.newFile (ctxF c unix b) {} with
  | .ok _ s => s
  | _ => {}

/-- two rows, the failure is before the last byte -/
def failing1 : FailingFile := ⟨bs "a,12\nb,34", 8⟩

/-- the second row is longer than a piece that the portable reader reads -/
def failing2 : FailingFile := ⟨bs "a\n" ++ List.replicate 200 120 ++ bs "\nc\n", 190⟩

end Demo

open Demo in
/-- C68, the full property is false: the file `a,12`, `b,34` cannot be read behind `b,3`, and the parser delivers the row
`b`, 3 - valid, without an error - and says that this is the end of the file. -/
theorem C68_failure_is_silent :
    (getLineFailing true ⟨fun _ _ => 0, fun n => n⟩ failing1 { fpos := 5 } = getLine ⟨fun _ _ => 0, fun n => n⟩ (.file true (bs "a,12\nb,3")) { fpos := 5 }) ∧
    ((Parser.run (ctxF cs true failing1) [.getNext [str, num], .getNext [str, num]] (startF cs true failing1)).map fun r =>
      r.1.map fun o => (o.ret, o.valid, o.msg, o.eof)) =
      some [(.row (some [.str (bs "a"), .int 12]), true, [], false), (.row (some [.str (bs "b"), .int 3]), true, [], true)] := by
  refine ⟨C68_same_as_shorter_file _ failing1 true _ ⟨1, by decide +kernel⟩, by decide +kernel⟩

open Demo in
/-- C68, with the portable reader: of the line of 200 bytes, of which 188 can be read, the first 127 are delivered. -/
theorem C68_failure_is_silent_portable :
    failing2.readable false = bs "a\n" ++ List.replicate 127 120 ∧
    ((Parser.run (ctxF cs false failing2) [.getNext [str], .getNext [str]] (startF cs false failing2)).map fun r =>
      r.1.map fun o => (o.ret, o.valid, o.eof)) =
      some [(.row (some [.str (bs "a")]), true, false), (.row (some [.str (List.replicate 127 120)]), true, true)] := by
  refine ⟨by decide +kernel, by decide +kernel⟩

open Demo in
/-- the hypotheses of `C68_before_the_failure_partial` are met: one row of three read, the failure is in the third -/
example : (∃ s os s', Parser.Created (ctxF cs true ⟨bs "a,12\nb,34\nc,5\n", 12⟩) s ∧
    Parser.run (ctxF cs true ⟨bs "a,12\nb,34\nc,5\n", 12⟩) [.getNext [str, num]] s = some (os, s') ∧
    s'.line < ((FailingFile.mk (bs "a,12\nb,34\nc,5\n") 12).readable true).count LF ∧ os.map (·.ret) = [.row (some [.str (bs "a"), .int 12])]) := by
  have h : (match Parser.newFile (ctxF cs true ⟨bs "a,12\nb,34\nc,5\n", 12⟩) {} with
    | .ok _ _ => true | _ => false) = true := by decide +kernel
  have hc : Parser.Created (ctxF cs true ⟨bs "a,12\nb,34\nc,5\n", 12⟩) (startF cs true ⟨bs "a,12\nb,34\nc,5\n", 12⟩) := by
    refine .file rfl ?_
    unfold startF
    revert h
    cases Parser.newFile (ctxF cs true ⟨bs "a,12\nb,34\nc,5\n", 12⟩) {} with
    | ok u s => intro _; rfl
    | _ => intro h; cases h
  have hr : ((Parser.run (ctxF cs true ⟨bs "a,12\nb,34\nc,5\n", 12⟩) [.getNext [str, num]] (startF cs true ⟨bs "a,12\nb,34\nc,5\n", 12⟩)).map
      fun r => (decide (r.2.line < ((FailingFile.mk (bs "a,12\nb,34\nc,5\n") 12).readable true).count LF), r.1.map (·.ret))) =
      some (true, [.row (some [.str (bs "a"), .int 12])]) := by decide +kernel
  cases hrun : Parser.run (ctxF cs true ⟨bs "a,12\nb,34\nc,5\n", 12⟩) [.getNext [str, num]] (startF cs true ⟨bs "a,12\nb,34\nc,5\n", 12⟩) with
  | none => rw [hrun] at hr; cases hr
  | some r =>
    rw [hrun] at hr
    simp only [Option.map_some, Option.some.injEq, Prod.mk.injEq, decide_eq_true_eq] at hr
    exact ⟨_, r.1, r.2, hc, hrun, hr.1, hr.2⟩

end Ssp
