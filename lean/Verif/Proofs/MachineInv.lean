import Verif.Proofs.MachineRow
/-!
# Invariants of the row machine
-/
namespace Ssp
open Spec

/-! ## Reading ahead -/

theorem readGo_ok {ie : Bool} : ∀ {ls : List Bytes} {a : MRd}, (MRd.readGo ie ls a).1 = true →
    ∃ blank l rest, ls = blank ++ l :: rest ∧ (∀ b ∈ blank, ie = true ∧ chop b = []) ∧ (ie = true → chop l ≠ []) ∧
      (MRd.readGo ie ls a).2 = { a with
        ln := a.ln + blank.length + 1
        pos := a.off + blank.flatten.length
        off := a.off + blank.flatten.length + l.length
        crlf := eolOf l == [CR, LF]
        todo := rest
        look := chop l } := by
  intro ls
  induction ls with
  | nil => intro a h; cases h
  | cons l ls ih =>
    intro a h
    unfold MRd.readGo at h ⊢
    split
    · rename_i hb
      rw [if_pos hb] at h
      obtain ⟨blank, l', rest, e1, e2, e3, e4⟩ := ih h
      refine ⟨l :: blank, l', rest, by simp [e1], ?_, e3, ?_⟩
      · intro b hb'
        rcases List.mem_cons.mp hb' with rfl | hb'
        · exact hb
        · exact e2 _ hb'
      · rw [e4]
        simp only [List.length_cons, List.flatten_cons, List.length_append]
        congr 1 <;> omega
    · rename_i hb
      refine ⟨[], l, ls, rfl, by simp, fun h1 h2 => hb ⟨h1, h2⟩, ?_⟩
      simp

theorem cutNul_zap (l : Bytes) : cutNul (MRd.zap l) = [] := by
  cases l <;> simp [cutNul, MRd.zap]

theorem readGo_eof {ie : Bool} : ∀ {ls : List Bytes} {a : MRd}, (MRd.readGo ie ls a).1 = false →
    (∀ b ∈ ls, ie = true ∧ chop b = []) ∧ ∃ look crlf, cutNul look = [] ∧
      (MRd.readGo ie ls a).2 = { a with
        ln := a.ln + ls.length + 1
        pos := a.off + ls.flatten.length
        off := a.off + ls.flatten.length
        crlf := crlf
        todo := []
        tries := a.tries + 1
        look := look } := by
  intro ls
  induction ls with
  | nil =>
    intro a _
    refine ⟨by simp, MRd.zap a.look, a.crlf, cutNul_zap _, ?_⟩
    simp [MRd.readGo]
  | cons l ls ih =>
    intro a h
    unfold MRd.readGo at h ⊢
    split
    · rename_i hb
      rw [if_pos hb] at h
      obtain ⟨e1, look, crlf, e2, e3⟩ := ih h
      refine ⟨?_, look, crlf, e2, ?_⟩
      · intro b hb'
        rcases List.mem_cons.mp hb' with rfl | hb'
        · exact hb
        · exact e1 _ hb'
      · rw [e3]
        simp only [List.length_cons, List.flatten_cons, List.length_append]
        congr 1 <;> omega
    · rename_i hb
      rw [if_neg hb] at h; cases h

/-- the rows among some raw lines -/
def rowsOf (ie : Bool) (ls : List Bytes) : List Bytes := (ls.map chop).filter fun l => !ie || !l.isEmpty

theorem rowsOf_blank {ie : Bool} {ls : List Bytes} (h : ∀ b ∈ ls, ie = true ∧ chop b = []) : rowsOf ie ls = [] := by
  unfold rowsOf
  rw [List.filter_eq_nil_iff]
  intro l hl
  obtain ⟨b, hb, rfl⟩ := List.mem_map.mp hl
  simp [h b hb]

theorem rowsOf_cons {ie : Bool} {blank rest : List Bytes} {l : Bytes} (h : ∀ b ∈ blank, ie = true ∧ chop b = [])
    (hl : ie = true → chop l ≠ []) : rowsOf ie (blank ++ l :: rest) = chop l :: rowsOf ie rest := by
  have h1 := rowsOf_blank h
  unfold rowsOf at *
  rw [List.map_append, List.filter_append, h1]
  simp only [List.map_cons, List.nil_append]
  rw [List.filter_cons_of_pos]
  cases ie <;> simp_all

/-! ## The invariant -/

/-- what holds of the reader at any time -/
structure MBase (x : Ctx) (a : MRd) : Prop where
  todo : a.todo = (rawLines x.src.data).drop a.ln
  off : a.off = ((rawLines x.src.data).take a.ln).flatten.length
  tries : a.tries ≠ 0 → (rawLines x.src.data).length ≤ a.ln
  late : x.cfg.multiline = false → a.tries ≠ 0 → (rawLines x.src.data).length + a.tries ≤ a.ln

/-- a row has been read ahead -/
structure MHere (x : Ctx) (a : MRd) : Prop where
  tries : a.tries = 0
  ln : 0 < a.ln
  look : (rawLines x.src.data)[a.ln - 1]?.map chop = some a.look
  full : x.cfg.ignoreEmpty = true → a.look ≠ []
  pos : a.pos = ((rawLines x.src.data).take (a.ln - 1)).flatten.length
  crlf : (rawLines x.src.data)[a.ln - 1]?.map (fun l => eolOf l == [CR, LF]) = some a.crlf

/-- reading ahead found nothing -/
structure MOver (x : Ctx) (a : MRd) : Prop where
  tries : a.tries ≠ 0
  ln : (rawLines x.src.data).length < a.ln
  look : cutNul a.look = []
  pos : a.pos = x.src.data.length

/-- what holds between the calls -/
structure MInv (x : Ctx) (t : Mach) : Prop where
  base : MBase x t.rd
  here : t.eof = false → MHere x t.rd ∨ MOver x t.rd
  over : t.eof = true → t.rd.todo = [] ∧ (t.rd.ln = 0 ∧ x.src.data = [] ∧ t.rd.pos = 0 ∨ MOver x t.rd)
  clean : t.eof = false → t.rd.next.err.valid x.cfg.mode = true

theorem split_at {α : Type} {raw q rest : List α} {l : α} {m : Nat} (h : raw = q ++ l :: rest) (hm : q.length = m) :
    raw.drop (m + 1) = rest ∧ raw.take (m + 1) = q ++ [l] ∧ raw.take m = q ∧ raw[m]? = some l := by
  subst hm
  subst h
  refine ⟨?_, ?_, ?_, ?_⟩
  · rw [show q ++ l :: rest = (q ++ [l]) ++ rest by simp, List.drop_left' (by simp)]
  · rw [show q ++ l :: rest = (q ++ [l]) ++ rest by simp, List.take_left' (by simp)]
  · simp
  · simp

theorem MBase.read {x : Ctx} {a : MRd} (h : MBase x a) : MBase x (a.readR x).2 ∧
    ((a.readR x).1 = true → MHere x (a.readR x).2 ∧ rowsOf x.cfg.ignoreEmpty a.todo = (a.readR x).2.look :: rowsOf x.cfg.ignoreEmpty (a.readR x).2.todo) ∧
    ((a.readR x).1 = false → MOver x (a.readR x).2 ∧ (a.readR x).2.todo = [] ∧ rowsOf x.cfg.ignoreEmpty a.todo = []) ∧
    (a.readR x).2.next.err.valid x.cfg.mode = true ∧ (a.readR x).2.cur = a.cur ∧ (a.readR x).2.sel = a.sel ∧
    (a.readR x).2.ncols = a.ncols ∧ (a.readR x).2.next.serr = a.next.serr ∧ a.ln < (a.readR x).2.ln := by
  have hfl := rawLines_flatten x.src.data
  obtain ⟨h1, h2, h3, h4⟩ := h
  cases hr : (a.readR x).1 with
  | true =>
    obtain ⟨blank, l, rest, e1, e2, e3, e4⟩ := readGo_ok hr
    replace e4 : (a.readR x).2 = _ := e4
    rw [e4]
    simp only
    rw [e1] at h1 ⊢
    have hsplit : rawLines x.src.data = ((rawLines x.src.data).take a.ln ++ blank) ++ l :: rest := by
      rw [List.append_assoc, h1, List.take_append_drop]
    have htl : ((rawLines x.src.data).take a.ln).length = a.ln := by
      rw [List.length_take, Nat.min_eq_left]
      false_or_by_contra
      rw [List.drop_eq_nil_of_le (by omega)] at h1
      simp at h1
    obtain ⟨s1, s2, s3, s4⟩ := split_at hsplit (m := a.ln + blank.length) (by simp [htl])
    have hlen := congrArg List.length hsplit
    rw [List.length_append, List.length_append, htl, List.length_cons] at hlen
    refine ⟨⟨s1.symm, ?_, ?_, ?_⟩, fun _ => ⟨⟨?_, by simp, ?_, e3, ?_, ?_⟩, rowsOf_cons e2 e3⟩, by simp,
      ErrSt.valid_clear _ _, trivial, trivial, trivial, trivial, by omega⟩
    · rw [s2]; simp [← h2, Nat.add_assoc]
    · intro ht; have := h3 ht; simp only; omega
    · intro _ ht; have := h3 ht; simp only; omega
    · false_or_by_contra
      rename_i ht
      have := h3 ht
      omega
    · simp only [Nat.add_sub_cancel, s4, Option.map_some]
    · simp only [Nat.add_sub_cancel, s3]; simp [← h2]
    · simp only [Nat.add_sub_cancel, s4, Option.map_some]
  | false =>
    obtain ⟨e1, look, crlf, e2, e3⟩ := readGo_eof hr
    replace e3 : (a.readR x).2 = _ := e3
    rw [e3]
    simp only
    have hsplit : rawLines x.src.data = (rawLines x.src.data).take a.ln ++ a.todo := by
      rw [h1, List.take_append_drop]
    have htot : a.off + a.todo.flatten.length = x.src.data.length := by
      rw [← hfl, hsplit, h2]
      simp
    have hlen := congrArg List.length hsplit
    rw [List.length_append, List.length_take] at hlen
    refine ⟨⟨?_, ?_, ?_, ?_⟩, by simp, fun _ => ⟨⟨by simp, by simp only; omega, e2, htot⟩, trivial, rowsOf_blank e1⟩,
      ErrSt.valid_clear _ _, trivial, trivial, trivial, trivial, by omega⟩
    · simp only; rw [List.drop_eq_nil_of_le (by omega)]
    · simp only; rw [List.take_of_length_le (by omega), htot, hfl]
    · intro _; simp only; omega
    · intro hml ht
      simp only
      by_cases h0 : a.tries = 0
      · rw [h0]; omega
      · have := h4 hml h0; omega

end Ssp
