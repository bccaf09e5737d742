import Verif.Proofs.ParseOne
import Verif.Proofs.SplitTail
/-!
# `parse` with multiline follows the row machine
-/
namespace Ssp
open Spec

/-! ## Escapes at the end of the text -/

theorem trailing_concat (c : Cfg) (t : Bytes) (b : Byte) :
    MRd.trailing c (t ++ [b]) = if b ∈ c.escape then MRd.trailing c t + 1 else 0 := by
  unfold MRd.trailing
  rw [List.reverse_append]
  simp only [List.reverse_cons, List.reverse_nil, List.nil_append, List.singleton_append, List.takeWhile_cons]
  by_cases h : b ∈ c.escape <;> simp [h]

theorem takeWhile_append_stop {p : Byte → Bool} : ∀ {t r : Bytes}, (∀ z, r.head? = some z → p z = false) →
    (t ++ r).takeWhile p = t.takeWhile p := by
  intro t
  induction t with
  | nil =>
    intro r h
    cases r with
    | nil => rfl
    | cons z r => simp [h z rfl]
  | cons b t ih =>
    intro r h
    simp only [List.cons_append, List.takeWhile_cons, ih h]

/-- only what stands behind a byte that is no escape matters -/
theorem trailing_append {c : Cfg} {P t : Bytes} (h : ∀ z, P.getLast? = some z → z ∉ c.escape) :
    MRd.trailing c (P ++ t) = MRd.trailing c t := by
  unfold MRd.trailing
  rw [List.reverse_append, takeWhile_append_stop]
  intro z hz
  rw [List.head?_reverse] at hz
  simpa using h z hz

namespace Reader

theorem countEscapes_spec (c : Cfg) (s : Reader) : ∀ (p : Nat), p ≤ s.next.conv.spl.mem.length →
    countEscapes c p s = .ok (MRd.trailing c (s.next.conv.spl.mem.take p)) s := by
  intro p
  induction p with
  | zero => intro _; simp [countEscapes, MRd.trailing]
  | succ p ih =>
    intro hp
    have hb : s.next.conv.spl.mem[p]? = some s.next.conv.spl.mem[p] := List.getElem?_eq_getElem (by omega)
    have ht : s.next.conv.spl.mem.take (p + 1) = s.next.conv.spl.mem.take p ++ [s.next.conv.spl.mem[p]] :=
      List.take_succ_eq_append_getElem (by omega)
    rw [ht, trailing_concat]
    simp only [countEscapes]
    rw [M.bind_of_ok (show rdNext p s = .ok s.next.conv.spl.mem[p] s by simp [rdNext, hb])]
    split
    · rw [M.bind_of_ok (ih (by omega))]; rfl
    · rfl

theorem escapedEol_spec (x : Ctx) (s : Reader) (h : s.nextLineSize ≤ s.next.conv.spl.mem.length) :
    escapedEol x s.nextLineSize s = .ok (MRd.oddTail x.cfg (s.next.conv.spl.mem.take s.nextLineSize)) s := by
  unfold escapedEol
  rw [M.bind_of_ok (countEscapes_spec _ _ _ h)]
  simp only [M.pure_apply, MRd.oddTail]
  congr 1
  generalize MRd.trailing _ _ = k
  rcases Nat.mod_two_eq_zero_or_one k with h | h
  · have : (k + 1) % 2 = 1 := by omega
    rw [h, this]; rfl
  · have : (k + 1) % 2 = 0 := by omega
    rw [h, this]; rfl

/-! ## Appending a line -/

/-- the terminator `undo_remove_eol` puts back -/
def eolBytes (b : Bool) : Bytes := if b then [CR, LF] else [LF]

theorem undoRemoveEol_spec {s : Reader} (hz : s.next.size = s.next.conv.spl.mem.length) :
    ∃ m k, undoRemoveEol s = .ok () { s.setMem m with nextLineSize := k } ∧ m.length = s.next.conv.spl.mem.length ∧
      (s.nextLineSize < s.next.conv.spl.mem.length → s.Room →
        m.take k = s.next.conv.spl.mem.take s.nextLineSize ++ eolBytes s.crlf ∧ k ≤ m.length) := by
  unfold undoRemoveEol
  simp only [M.get_bind]
  rw [hz]
  by_cases h1 : s.crlf = true ∧ s.next.conv.spl.mem.length ≥ s.nextLineSize + 2
  · rw [if_pos h1]
    rw [M.bind_of_ok (wrNext_ok (by omega)), M.bind_of_ok (wrNext_ok (by simp only [List.length_set]; omega))]
    refine ⟨(s.next.conv.spl.mem.set s.nextLineSize CR).set (s.nextLineSize + 1) LF, s.nextLineSize + 2, rfl, by simp, ?_⟩
    intro _ _
    refine ⟨?_, by simp; omega⟩
    obtain ⟨A, B, hA, hB⟩ : ∃ A B, s.next.conv.spl.mem = A ++ B ∧ A.length = s.nextLineSize :=
      ⟨_, _, (List.take_append_drop s.nextLineSize _).symm, by simp; omega⟩
    have hBl : 2 ≤ B.length := by have := congrArg List.length hA; simp at this; omega
    obtain ⟨b1, b2, B', rfl⟩ : ∃ b1 b2 B', B = b1 :: b2 :: B' := by
      match B, hBl with
      | b1 :: b2 :: B', _ => exact ⟨b1, b2, B', rfl⟩
    rw [hA, h1.1, ← hB]
    rw [List.set_append_right (h := by omega), Nat.sub_self, List.set_append_right (h := by omega),
      show A.length + 1 - A.length = 1 by omega]
    simp [eolBytes, List.take_append, List.take_of_length_le]
  · rw [if_neg h1]
    by_cases h2 : s.next.conv.spl.mem.length > s.nextLineSize
    · rw [if_pos h2]
      rw [M.bind_of_ok (wrNext_ok h2)]
      refine ⟨s.next.conv.spl.mem.set s.nextLineSize LF, s.nextLineSize + 1, rfl, by simp, ?_⟩
      intro _ hr
      have hcr : s.crlf = false := by
        cases hc : s.crlf with
        | false => rfl
        | true => exact absurd ⟨hc, hr hc⟩ h1
      refine ⟨?_, by simp; omega⟩
      obtain ⟨A, B, hA, hB⟩ : ∃ A B, s.next.conv.spl.mem = A ++ B ∧ A.length = s.nextLineSize :=
        ⟨_, _, (List.take_append_drop s.nextLineSize _).symm, by simp; omega⟩
      have hBl : 1 ≤ B.length := by have := congrArg List.length hA; simp at this; omega
      obtain ⟨b1, B', rfl⟩ : ∃ b1 B', B = b1 :: B' := by
        match B, hBl with
        | b1 :: B', _ => exact ⟨b1, B', rfl⟩
      rw [hA, hcr, ← hB]
      rw [List.set_append_right (h := by omega), Nat.sub_self]
      simp [eolBytes, List.take_append, List.take_of_length_le]
    · rw [if_neg h2]
      exact ⟨s.next.conv.spl.mem, s.nextLineSize, rfl, rfl, fun h => absurd h h2⟩

theorem removeEolHelper_spec {l R : Bytes} {s : Reader} (hl : l ≠ []) (hm : s.helper = l ++ NUL :: R) :
    removeEolHelper l.length s = .ok (chop l).length
      { s with crlf := eolOf l == [CR, LF], helper := chop l ++ NUL :: tailOf l R } := by
  unfold removeEolHelper
  simp only [M.get_bind]
  rw [hm, eolSize_spec hl]
  have hr := removed_eq l R
  by_cases h : (chop l).length = l.length
  · rw [if_pos h] at hr
    simp only [h, if_true, M.modify_bind, M.pure_apply]
    rw [← hr, ← hm]
  · rw [if_neg h] at hr
    have hlt : (chop l).length < (l ++ NUL :: R).length := by
      have := congrArg List.length (chop_eol l)
      simp at this ⊢; omega
    simp only [h, if_false, hlt, if_true, M.modify_bind, M.pure_apply]
    rw [← hr, hm]

theorem reallocConcat_spec {x : Ctx} {s : Reader} {t R : Bytes} (hh : s.helper = t ++ NUL :: R)
    (hn : s.nextLineSize ≤ s.next.conv.spl.mem.length) :
    ∃ T, reallocConcat x t.length s = .ok () { s with
      next :=
        { conv := { s.next.conv with spl :=
            { s.next.conv.spl with
              mem := (s.next.conv.spl.mem.take s.nextLineSize ++ t) ++ NUL :: T
              gen := s.next.conv.spl.gen + 1 } }
          size := s.nextLineSize + t.length + 3 }
      tick := s.tick + 1
      nextLineSize := s.nextLineSize + t.length } ∧
      ((s.next.conv.spl.mem.take s.nextLineSize ++ t) ++ NUL :: T).length = s.nextLineSize + t.length + 3 := by
  unfold reallocConcat
  have hle : t.length + 1 ≤ s.helper.length := by rw [hh]; simp
  simp only [hle, if_true]
  generalize hJ : (List.range (s.nextLineSize + t.length + 3 - s.next.conv.spl.mem.length)).map
    (fun i => x.env.junk s.tick (s.next.conv.spl.mem.length + i)) = J
  have hJl : J.length = s.nextLineSize + t.length + 3 - s.next.conv.spl.mem.length := by rw [← hJ]; simp
  generalize hb : s.next.conv.spl.mem.take (s.nextLineSize + t.length + 3) ++ J = block
  have hbl : block.length = s.nextLineSize + t.length + 3 := by rw [← hb]; simp [hJl]; omega
  have hbt : block.take s.nextLineSize = s.next.conv.spl.mem.take s.nextLineSize := by
    rw [← hb, List.take_append_of_le_length (by simp; omega), List.take_take, Nat.min_eq_left (by omega)]
  have hht : s.helper.take (t.length + 1) = t ++ [NUL] := by
    rw [hh, show t ++ NUL :: R = (t ++ [NUL]) ++ R by simp, List.take_left' (by simp)]
  refine ⟨block.drop (s.nextLineSize + t.length + 1), ?_, ?_⟩
  · rw [hbt, hht]; simp
  · simp [hbl]; omega

/-- everything of a reader and its splitter that appending a line keeps -/
structure Grown (s s' : Reader) : Prop where
  cur : s'.cur = s.cur
  conv : s'.next.conv = { s.next.conv with spl :=
    { s.next.conv.spl with mem := s'.next.conv.spl.mem, gen := s'.next.conv.spl.gen } }

theorem Grown.refl (s : Reader) : Grown s s := ⟨rfl, rfl⟩
theorem Grown.trans {s s' s'' : Reader} (h : Grown s s') (h' : Grown s' s'') : Grown s s'' :=
  ⟨h'.cur.trans h.cur, by rw [h'.conv, h.conv]⟩

open Io in
/-- at the end of the input -/
theorem append_nil {x : Ctx} (hf : x.src.Fine) {s : Reader} {a : MRd} (hr : RBase x s a) (ht : a.todo = []) :
    ∃ s' a', appendNextLine x s = .ok false s' ∧ MRd.append a = .ok false a' ∧ RBase x s' a' ∧ a'.todo = [] := by
  obtain ⟨m, k, hu, hml, _⟩ := undoRemoveEol_spec hr.next.sized
  unfold appendNextLine
  rw [M.bind_of_ok hu]
  simp only [M.modify_bind]
  generalize hs1 : ({ s.setMem m with nextLineSize := k, charsRead := s.curr } : Reader) = s1
  have hu : x.src.unread s.curr s.fpos = [] := by
    by_cases h : x.src.unread s.curr s.fpos = []
    · exact h
    · have := hr.todo; rw [ht, rawLines_cons h] at this; cases this
  have hsz : s1.ioHelper.Sized := by rw [← hs1]; exact hr.helper
  obtain ⟨J, io, g1, g2, g3, g4, g5⟩ := getLine_eof (env := x.env) hf hsz (by rw [← hs1]; exact hu)
  have hgl : getLineHelper x s1 = .ok none (s1.setHelper io) := by simp [getLineHelper, g1]
  have hs1' : ({ (s.setMem m) with nextLineSize := k, charsRead := (s.setMem m).curr } : Reader) = s1 := hs1
  rw [hs1', M.bind_of_ok hgl]
  refine ⟨s1.setHelper io, { a with pos := a.off, tries := a.tries + 1, next := { a.next with cols := none } }, rfl,
    by simp only [MRd.append, ht], ?_, ht⟩
  refine { cur := ?_, next := ?_, selok := hr.selok, helper := g3, todo := ?_, ln := ?_, done := fun _ => ht, curr := ?_, chars := ?_ }
  · rw [← hs1]; exact hr.cur
  · refine ⟨?_, ?_, ?_, ?_, ?_, by intro cs h; cases h⟩
    · rw [← hs1]; exact hr.next.err
    · rw [← hs1]; exact hr.next.serr
    · rw [← hs1]; exact hr.next.sel
    · rw [← hs1]; exact hr.next.ncols
    · rw [← hs1]; exact hr.next.sized.trans hml.symm
  · show a.todo = rawLines (x.src.unread io.curr io.fpos); rw [g5, ht]; rfl
  · rw [← hs1]; exact hr.ln
  · show io.curr = x.src.eofCurr (x.src.seek a.off a.tries)
    rw [g4, ← hr.curr, ← hs1]; rfl
  · rw [← hs1]; exact hr.curr

open Io in
/-- a line is appended to the text in the buffer -/
theorem append_cons {x : Ctx} (hf : x.src.Fine) {s : Reader} {a : MRd} (hr : RBase x s a) {l : Bytes} {ls : List Bytes}
    (ht : a.todo = l :: ls) (hlt : s.nextLineSize < s.next.conv.spl.mem.length) (hroom : s.Room)
    (hcr : s.crlf = a.crlf) :
    ∃ s' a' T, appendNextLine x s = .ok true s' ∧ MRd.append a = .ok true a' ∧ RBase x s' a' ∧ Grown s s' ∧
      s'.crlf = a'.crlf ∧ s'.Room ∧ a'.todo = ls ∧ a'.look = a.look ++ eolBytes a.crlf ++ chop l ∧
      s'.next.conv.spl.mem = (s.next.conv.spl.mem.take s.nextLineSize ++ eolBytes a.crlf ++ chop l) ++ NUL :: T ∧
      s'.nextLineSize = (s.next.conv.spl.mem.take s.nextLineSize ++ eolBytes a.crlf ++ chop l).length := by
  obtain ⟨m, k, hu, hml, hmt⟩ := undoRemoveEol_spec hr.next.sized
  obtain ⟨hmt, hkl⟩ := hmt hlt hroom
  unfold appendNextLine
  rw [M.bind_of_ok hu]
  simp only [M.modify_bind]
  generalize hs1 : ({ s.setMem m with nextLineSize := k, charsRead := s.curr } : Reader) = s1
  have hs1' : ({ (s.setMem m) with nextLineSize := k, charsRead := (s.setMem m).curr } : Reader) = s1 := hs1
  rw [hs1']
  have hu : x.src.unread s.curr s.fpos ≠ [] := by
    intro h
    have := hr.todo; rw [ht, h] at this; cases this
  have hl : l = upToLF (x.src.unread s.curr s.fpos) ∧
      ls = rawLines ((x.src.unread s.curr s.fpos).drop (upToLF (x.src.unread s.curr s.fpos)).length) := by
    have := hr.todo; rw [ht, rawLines_cons hu] at this
    simpa using this
  have hsz : s1.ioHelper.Sized := by rw [← hs1]; exact hr.helper
  have hun : x.src.unread s1.ioHelper.curr s1.ioHelper.fpos = x.src.unread s.curr s.fpos := by rw [← hs1]; rfl
  obtain ⟨J, io, g1, g2, g3, g4, g5⟩ := getLine_line (env := x.env) hf hsz (by rw [hun]; exact hu)
  rw [hun, ← hl.1] at g1 g2 g4 g5
  have hl0 : l ≠ [] := by rw [hl.1]; exact upToLF_ne hu
  have hgl : getLineHelper x s1 = .ok (some l.length) (s1.setHelper io) := by simp [getLineHelper, g1]
  rw [M.bind_of_ok hgl]
  simp only [M.modify_bind]
  obtain ⟨R, hR⟩ : ∃ R, io.mem = l ++ NUL :: R := ⟨_, g2⟩
  generalize hs2 : ({ s1.setHelper io with lineNumber := (s1.setHelper io).lineNumber + 1 } : Reader) = s2
  have hh2 : s2.helper = l ++ NUL :: R := by rw [← hs2]; exact hR
  rw [M.bind_of_ok (removeEolHelper_spec hl0 hh2)]
  generalize hs3 : ({ s2 with crlf := eolOf l == [CR, LF], helper := chop l ++ NUL :: tailOf l R } : Reader) = s3
  have hmem3 : s3.next.conv.spl.mem = m := by rw [← hs3, ← hs2, ← hs1]; rfl
  have hn3 : s3.nextLineSize = k := by rw [← hs3, ← hs2, ← hs1]; rfl
  obtain ⟨T, hc, hlen⟩ := reallocConcat_spec (x := x) (s := s3) (t := chop l) (R := tailOf l R) (by rw [← hs3])
    (by rw [hmem3, hn3]; exact hkl)
  rw [hmem3, hn3, hmt] at hc hlen
  rw [M.bind_of_ok hc]
  have htries : a.tries = 0 := by
    rcases Nat.eq_zero_or_pos a.tries with h | h
    · exact h
    · have := hr.done h; rw [ht] at this; cases this
  have hk : k = (s.next.conv.spl.mem.take s.nextLineSize ++ eolBytes s.crlf).length := by
    rw [← hmt]; simp; omega
  refine ⟨_, { a with look := a.look ++ eolBytes a.crlf ++ chop l
                      ln := a.ln + 1, pos := a.off, off := a.off + l.length, crlf := eolOf l == [CR, LF], todo := ls
                      next := { a.next with cols := none } }, T, rfl, ?_, ?_, ?_, ?_, ?_, rfl, rfl, ?_, ?_⟩
  · simp only [MRd.append, ht, eolBytes]
  · refine { cur := ?_, next := ?_, selok := hr.selok, helper := ?_, todo := ?_, ln := ?_, done := ?_, curr := ?_, chars := ?_ }
    · rw [← hs3, ← hs2, ← hs1]; exact hr.cur
    · refine ⟨?_, ?_, ?_, ?_, hlen.symm, by intro cs h; cases h⟩
      · rw [← hs3, ← hs2, ← hs1]; exact hr.next.err
      · rw [← hs3, ← hs2, ← hs1]; exact hr.next.serr
      · rw [← hs3, ← hs2, ← hs1]; exact hr.next.sel
      · rw [← hs3, ← hs2, ← hs1]; exact hr.next.ncols
    · rw [← hs3]
      show s2.helperSize = (chop l ++ NUL :: tailOf l R).length
      have e1 : s2.helperSize = s2.helper.length := by rw [← hs2]; exact g3
      rw [e1, hh2, ← removed_eq]
      split
      · rfl
      · rw [List.length_set]
    · rw [← hs3, ← hs2]
      show ls = rawLines (x.src.unread io.curr io.fpos)
      rw [g5, hl.2, ← hl.1]
    · rw [← hs3, ← hs2, ← hs1]; exact congrArg (· + 1) hr.ln
    · intro h; exact absurd h (by show ¬ a.tries > 0; omega)
    · rw [← hs3, ← hs2]
      show io.curr = x.src.seek (a.off + l.length) a.tries
      rw [g4, htries, ← hs1]
      show s.curr + _ = _
      rw [hr.curr0 htries]; rfl
    · rw [← hs3, ← hs2, ← hs1]
      show s.curr = x.src.seek a.off (a.tries - 1)
      rw [hr.curr, htries]
  · constructor
    · rw [← hs3, ← hs2, ← hs1]; rfl
    · rw [← hs3, ← hs2, ← hs1]; rfl
  · rw [← hs3]
  · intro _
    show k + (chop l).length + 2 ≤ (_ : Bytes).length
    rw [hlen]; omega
  · rw [← hcr]
  · rw [← hcr]
    show k + (chop l).length = _
    rw [List.length_append, ← hk]

end Reader

/-! ## The loops -/

/-- The outcome `r` is what the outcome `r'` of the machine says; the relation may depend on the value. -/
def VSim {σ τ α : Type} (Q : α → σ → τ → Prop) (E : σ → τ → Prop) (r : Res σ α) (r' : Res τ α) : Prop :=
  match r' with
  | .ok b t => ∃ s, r = .ok b s ∧ Q b s t
  | .exc e t => ∃ s, r = .exc e s ∧ E s t
  | .ub => True
  | .nofuel => True

namespace VSim
variable {σ τ α β : Type} {E : σ → τ → Prop} {Q : α → σ → τ → Prop} {Q' : β → σ → τ → Prop}

theorem bind {m : M σ α} {m' : M τ α} {f : α → M σ β} {f' : α → M τ β} {s : σ} {t : τ}
    (h : VSim Q E (m s) (m' t)) (hf : ∀ a s' t', Q a s' t' → VSim Q' E (f a s') (f' a t')) :
    VSim Q' E ((m >>= f) s) ((m' >>= f') t) := by
  unfold VSim at h
  cases hm : m' t with
  | ok b t' =>
    rw [hm] at h
    obtain ⟨s', h1, h2⟩ := h
    rw [M.bind_of_ok h1, M.bind_of_ok hm]
    exact hf _ _ _ h2
  | exc e t' =>
    rw [hm] at h
    obtain ⟨s', h1, h2⟩ := h
    rw [M.bind_of_exc h1, M.bind_of_exc hm]
    exact ⟨_, rfl, h2⟩
  | ub => simp [M.bind_apply, hm, VSim]
  | nofuel => simp [M.bind_apply, hm, VSim]

theorem ok {a : α} {s : σ} {t : τ} (hq : Q a s t) : VSim Q E (.ok a s) (.ok a t) := ⟨s, rfl, hq⟩
theorem exc {e : Bytes} {s : σ} {t : τ} (he : E s t) : VSim Q E (.exc e s) (.exc e t) := ⟨s, rfl, he⟩

end VSim

/-- after `parse` -/
def PQ (x : Ctx) (s : Reader) (a : MRd) : Prop :=
  RBase x s a ∧ (a.todo = [] ∨ (s.cur.Idle x.cfg ∧ s.next.Idle x.cfg))
def PE (x : Ctx) (s : Reader) (a : MRd) : Prop := x.cfg.mode = .throw ∧ PQ x s a

theorem RBase.setNext {x : Ctx} {s : Reader} {a : MRd} (h : RBase x s a) {cv : Conv} {e e' : ErrSt}
    (hm : cv.spl.mem.length = s.next.conv.spl.mem.length) (h1 : cv.err = e) (h2 : cv.spl.err = e')
    (h3 : cv.mappings = s.next.conv.mappings) (h4 : cv.ncols = s.next.conv.ncols) :
    RBase x { s with next := { s.next with conv := cv } } { a with next := { err := e, serr := e', cols := none } } where
  cur := h.cur
  next := ⟨h1, h2, h3.trans h.next.sel, h4.trans h.next.ncols, h.next.sized.trans hm.symm, by intro cs h; cases h⟩
  selok := h.selok
  helper := h.helper
  todo := h.todo
  ln := h.ln
  done := h.done
  curr := h.curr
  chars := h.chars

theorem failLimit_sim {x : Ctx} {s : Reader} {a : MRd} (h : RBase x s a) (hc : s.cur.Idle x.cfg)
    (hr : s.next.conv.spl.resplitting = false) :
    VSim (fun _ => PQ x) (PE x) (Reader.onNext (Conv.handleErrorMultilineLimit x.cfg) s) (MRd.failLimit x.cfg a) := by
  unfold Reader.onNext Conv.handleErrorMultilineLimit MRd.failLimit
  simp only [M.modify_bind, Conv.handleError]
  cases hm : x.cfg.mode with
  | throw =>
    refine .exc ⟨hm, h.setNext rfl h.next.err h.next.serr rfl rfl, .inr ⟨hc, hr, fun _ => rfl⟩⟩
  | string =>
    refine .ok ⟨h.setNext rfl ?_ h.next.serr rfl rfl, .inr ⟨hc, hr, fun _ => rfl⟩⟩
    rw [h.next.err]
  | bool =>
    refine .ok ⟨h.setNext rfl ?_ h.next.serr rfl rfl, .inr ⟨hc, hr, fun _ => rfl⟩⟩
    rw [h.next.err]

theorem failOpen_sim {x : Ctx} {s : Reader} {a : MRd} (h : RBase x s a) (ht : a.todo = []) :
    VSim (fun _ => PQ x) (PE x) (Reader.onNext (Conv.handleErrorUnterminatedEscape x.cfg) s)
      (MRd.failOpen x.cfg Spl.msgUnterminatedEscape a) ∧
    VSim (fun _ => PQ x) (PE x) (Reader.onNext (Conv.handleErrorUnterminatedQuote x.cfg) s)
      (MRd.failOpen x.cfg Spl.msgUnterminatedQuote a) := by
  unfold Reader.onNext Conv.handleErrorUnterminatedEscape Conv.handleErrorUnterminatedQuote MRd.failOpen
  cases hm : x.cfg.mode with
  | throw =>
    simp only [Conv.onSpl, Spl.handleError, hm, M.bind_apply, M.throw_apply]
    exact ⟨.exc ⟨hm, h.setNext rfl h.next.err h.next.serr rfl rfl, .inl ht⟩,
      .exc ⟨hm, h.setNext rfl h.next.err h.next.serr rfl rfl, .inl ht⟩⟩
  | string =>
    simp only [Conv.onSpl, Spl.handleError, hm, M.bind_apply, M.modify_apply, ErrSt.set]
    exact ⟨.ok ⟨h.setNext rfl (by rw [h.next.err]) (by rw [h.next.serr]) rfl rfl, .inl ht⟩,
      .ok ⟨h.setNext rfl (by rw [h.next.err]) (by rw [h.next.serr]) rfl rfl, .inl ht⟩⟩
  | bool =>
    simp only [M.modify_apply]
    exact ⟨.ok ⟨h.setNext rfl (by rw [h.next.err]) h.next.serr rfl rfl, .inl ht⟩,
      .ok ⟨h.setNext rfl (by rw [h.next.err]) h.next.serr rfl rfl, .inl ht⟩⟩

/-- During an escape loop that started in the states `s0` and `a0`: the buffer holds `P`, then `pre`, then the text read
ahead from `before` on. -/
structure EInv (x : Ctx) (P pre : Bytes) (before : Nat) (s0 : Reader) (a0 : MRd) (s : Reader) (a : MRd) : Prop where
  base : RBase x s a
  buf : s.next.conv.spl.mem.take s.nextLineSize = P ++ (pre ++ a.look.drop before)
  lt : s.nextLineSize < s.next.conv.spl.mem.length
  le : before ≤ a.look.length
  crlf : s.crlf = a.crlf
  room : a.todo = [] ∨ s.Room
  grown : Reader.Grown s0 s
  more : ∃ r, a.look = a0.look ++ r
  fewer : a.todo.length ≤ a0.todo.length
  term : (s = s0 ∧ a = a0) ∨ (a0.todo ≠ [] ∧ ∃ T, s.next.conv.spl.mem = s.next.conv.spl.mem.take s.nextLineSize ++ NUL :: T)

theorem Reader.Grown.idle {s s' : Reader} (h : Reader.Grown s s') :
    s'.next.conv.spl.resplitting = s.next.conv.spl.resplitting ∧
    s'.next.conv.spl.unterminatedQuote = s.next.conv.spl.unterminatedQuote := by
  rw [h.conv]; exact ⟨rfl, rfl⟩

theorem eolBytes_nul (b : Bool) : NUL ∉ Reader.eolBytes b := by cases b <;> decide

theorem escapeLoop_sim {x : Ctx} (hf : x.src.Fine) {P pre : Bytes} {before : Nat} {s0 : Reader}
    {a0 : MRd} (hP : ∀ z, P.getLast? = some z → z ∉ x.cfg.escape) (hc : s0.cur.Idle x.cfg)
    (hr : s0.next.conv.spl.resplitting = false) : ∀ (f limit : Nat) (s : Reader) (a : MRd),
    EInv x P pre before s0 a0 s a →
    VSim (fun o s' a' => match o with | none => PQ x s' a' | some _ => EInv x P pre before s0 a0 s' a') (PE x)
      (Reader.escapeLoop x f limit s) (MRd.escapeLoop x pre before f limit a) := by
  intro f
  induction f with
  | zero => intro limit s a _; trivial
  | succ f ih =>
    intro limit s a h
    unfold Reader.escapeLoop MRd.escapeLoop
    simp only [M.get_bind]
    rw [M.bind_of_ok (Reader.escapedEol_spec x s (Nat.le_of_lt h.lt)), h.buf]
    have hodd : MRd.oddTail x.cfg (P ++ (pre ++ a.look.drop before)) = MRd.oddTail x.cfg (pre ++ a.look.drop before) := by
      unfold MRd.oddTail; rw [trailing_append hP]
    rw [hodd]
    split
    · unfold Reader.multilineLimitReached
      by_cases hl : x.cfg.mlLimit > 0 ∧ limit ≥ x.cfg.mlLimit
      · rw [if_pos hl, if_pos hl, M.bind_assoc_apply]
        refine (failLimit_sim h.base (by rw [h.grown.cur]; exact hc) (h.grown.idle.1.trans hr)).bind fun _ s' a' hq => ?_
        exact .ok hq
      · rw [if_neg hl, if_neg hl]
        simp only [M.pure_bind', Bool.false_eq_true, if_false]
        cases ht : a.todo with
        | nil =>
          obtain ⟨s', a', e1, e2, e3, e4⟩ := Reader.append_nil hf h.base ht
          rw [M.bind_of_ok e1, M.bind_of_ok e2]
          simp only [Bool.false_eq_true, if_false]
          exact (failOpen_sim e3 e4).1.bind fun _ s' a' hq => .ok hq
        | cons l ls =>
          obtain ⟨s', a', T, e1, e2, e3, e4, e5, e6, e7, e8, e9, e10⟩ := Reader.append_cons hf h.base ht h.lt
            (h.room.resolve_left (by rw [ht]; simp)) h.crlf
          rw [M.bind_of_ok e1, M.bind_of_ok e2]
          simp only [if_true]
          have htk : s'.next.conv.spl.mem.take s'.nextLineSize = s.next.conv.spl.mem.take s.nextLineSize ++ Reader.eolBytes a.crlf ++ chop l := by
            rw [e9, e10, List.take_left' rfl]
          refine ih _ _ _ { base := e3, buf := ?_, lt := ?_, le := ?_, crlf := e5, room := .inr e6, grown := h.grown.trans e4, more := ?_, fewer := by have := h.fewer; rw [ht] at this; rw [e7]; simp at this; omega, term := .inr ⟨?_, T, ?_⟩ }
          · rw [htk, h.buf, e8, List.append_assoc, List.append_assoc a.look, List.drop_append_of_le_length h.le]
            simp
          · rw [e9, e10]; simp
          · rw [e8]; have := h.le; simp; omega
          · obtain ⟨r, h1⟩ := h.more
            exact ⟨r ++ (Reader.eolBytes a.crlf ++ chop l), by rw [e8, h1]; simp⟩
          · rcases h.term with h' | h'
            · rw [← h'.2, ht]; simp
            · exact h'.1
          · rw [htk]; exact e9
    · exact .ok h

/-! ## Splitting -/

/-- what the machine reports of a (re)split of a text of `n` bytes with the columns `fs` and the end `e` -/
def MRd.settle (c : Cfg) (n : Nat) (fs : List Bytes) (e : End) : M MRd Unit := fun a =>
  match endError c n e with
  | some m =>
    if c.mode = .throw then .exc m { a with next := { a.next with cols := none } }
    else .ok () { a with next := { a.next with serr := (a.next.serr.clear c.mode).set c.mode m, cols := none } }
  | none => .ok () { a with next := { a.next with
        serr := a.next.serr.clear c.mode
        cols := if e.isOpenQuote then none else some fs } }

theorem MRd.splitText_settle {c : Cfg} {delim text : Bytes} (h : text ≠ []) :
    MRd.splitText c delim text = MRd.settle c text.length (decodeRow c delim text).1 (decodeRow c delim text).2 := by
  funext a
  unfold MRd.splitText MRd.settle
  rw [if_neg h]
  rfl

theorem MRd.resplitText_settle {c : Cfg} {delim : Bytes} {fs : List Bytes} {acc more : Bytes} {n o : Nat} :
    MRd.resplitText c delim fs acc n o more = MRd.settle c (n - o + acc.length + more.length)
      (fs ++ (decode c delim .quoted acc more).1) (decode c delim .quoted acc more).2 := rfl

/-- what both sides know after a (re)split -/
structure Settled (c : Cfg) (x : Ctx) (m : M Spl Unit) (N : Nat) (T : Bytes) (fs : List Bytes) (e : End) (o : Nat) (s : Reader)
    (a : MRd) (s' : Reader) (a' : MRd) : Prop where
  base : RBase x s' a'
  spl : ∃ sp, s' = s.setSpl sp ∧ Spl.Left c 0 N T [] fs e o false sp ∧ sp.resplitting = false ∧
    sp.mem.length = s.next.conv.spl.mem.length ∧ sp.mem.drop N = NUL :: T ∧ m s.next.conv.spl = .ok () sp
  mach : a'.look = a.look ∧ a'.todo = a.todo ∧ a'.crlf = a.crlf

theorem left_readable {c : Cfg} {N : Nat} {T : Bytes} {fs : List Bytes} {e : End} {o : Nat} {s : Spl}
    (h : Spl.Left c 0 N T [] fs e o false s) (hg : s.gen = s.lineGen) (hN : N < s.mem.length) :
    Readable s := by
  refine ⟨.inl hg, ?_⟩
  obtain ⟨_, hl⟩ := h
  cases e with
  | openQuote a =>
    obtain ⟨ds, P, q, G, h1, _, h3, h4, _⟩ := hl
    have hP : s.mem.length = P.length + (1 + (a.length + (G.length + (1 + T.length)))) := by rw [h3]; simp; omega
    intro p hp
    rw [h4] at hp
    simp only [List.nil_append, List.mem_append, List.mem_singleton] at hp
    rcases hp with hp | rfl
    · have := h1.inside.1 p hp; omega
    · simp; omega
  | mismatch r b =>
    obtain ⟨ds, p', h1, h2, h3, _⟩ := hl
    intro p hp
    rw [h2] at hp
    simp only [List.nil_append, List.mem_append, List.mem_singleton] at hp
    rcases hp with hp | rfl
    · have := h1.inside.1 p hp; omega
    · simp; omega
  | eol =>
    obtain ⟨ds, h1, h2, _⟩ := hl
    intro p hp; rw [h2] at hp; simp only [List.nil_append] at hp
    have := h1.inside.1 p hp; omega
  | eolEscape =>
    obtain ⟨ds, h1, h2, _⟩ := hl
    intro p hp; rw [h2] at hp; simp only [List.nil_append] at hp
    have := h1.inside.1 p hp; omega
  | openEscape =>
    obtain ⟨ds, h1, h2, _⟩ := hl
    intro p hp; rw [h2] at hp; simp only [List.nil_append] at hp
    have := h1.inside.1 p hp; omega

theorem left_columns {c : Cfg} {N n : Nat} {T : Bytes} {fs : List Bytes} {e : End} {o : Nat} {s : Spl}
    (h : Spl.Left c 0 N T [] fs e o false s) (ho : e.isOpenQuote = false) (he : e.stringError c.multiline n = none) :
    s.columns = fs := by
  obtain ⟨_, hl⟩ := h
  cases e with
  | openQuote a => cases ho
  | mismatch r b => simp [End.stringError] at he
  | eol => obtain ⟨ds, h1, h2, _⟩ := hl; rw [Spl.columns, h2]; exact h1.columns
  | eolEscape => obtain ⟨ds, h1, h2, _⟩ := hl; rw [Spl.columns, h2]; exact h1.columns
  | openEscape => obtain ⟨ds, h1, h2, _⟩ := hl; rw [Spl.columns, h2]; exact h1.columns

theorem settle_sim {x : Ctx} {s : Reader} {a : MRd} {m : M Spl Unit} {s0 : Spl} {lo N : Nat} {T : Bytes}
    {fs0 fs : List Bytes} {e : End} {o : Nat} (hb : RBase x s a) (hml : x.cfg.multiline = true)
    (hc : s.cur.Idle x.cfg)
    (hpost : Spl.LoopPost x.cfg lo N T s0 (m s.next.conv.spl) (fs, e) o)
    (herr : s0.err = s.next.conv.spl.err.clear x.cfg.mode) (hlen : s0.mem.length = s.next.conv.spl.mem.length)
    (huq : s0.unterminatedQuote = false) (hres : s0.resplitting = false) (hgen : s0.gen = s0.lineGen)
    (hR : Ranges s0.mem 0 lo s0.data fs0) (hN : s0.mem.drop N = NUL :: T) :
    VSim (fun _ => Settled x.cfg x m N T (fs0 ++ fs) e o s a) (PE x)
      (Reader.onNext (Conv.onSpl m) s) (MRd.settle x.cfg N (fs0 ++ fs) e a) := by
  have hNl : N < s0.mem.length := by
    have := congrArg List.length hN
    simp at this; omega
  have key : ∀ s' : Spl, Spl.Frame lo N s0 s' → Spl.Left x.cfg lo N T s0.data fs e o s0.unterminatedQuote s' →
      Spl.Left x.cfg 0 N T [] (fs0 ++ fs) e o false s' ∧ Readable s' ∧ s'.mem.drop N = NUL :: T := by
    intro s' hf hl
    rw [huq] at hl
    have h1 := left_lo (data0 := []) (Ranges.congr hf.pre hR (Nat.le_refl _)) hl rfl rfl
    exact ⟨h1, left_readable h1 (by rw [hf.gen, hf.lineGen]; exact hgen) (by rw [hf.len]; exact hNl), by rw [hf.suf]; exact hN⟩
  unfold Spl.LoopPost Spl.Outcome at hpost
  unfold MRd.settle
  cases hx : endError x.cfg N e with
  | none =>
    have h1 : e.stringError x.cfg.multiline N = none := endError_none_iff.mp hx
    have h2 : e.throwError x.cfg.multiline N = none := (throwError_none_iff _ _ _ N).mpr h1
    simp only [h1, h2, ite_self] at hpost
    obtain ⟨s', e1, e2, e3, e4⟩ := hpost
    obtain ⟨k1, k2, k3⟩ := key s' e2 e4
    rw [onNext_ok (Conv.onSpl_ok e1)]
    refine .ok ⟨RBase.setSpl hb (e2.len.trans hlen) (by rw [e3, herr, hb.next.serr]) ?_,
      ⟨s', rfl, k1, e2.resplitting.trans hres, e2.len.trans hlen, k3, e1⟩, rfl, rfl, rfl⟩
    intro cs hcs
    split at hcs
    · cases hcs
    · rename_i ho
      cases hcs
      exact ⟨k2, left_columns k1 (by simpa using ho) h1⟩
  | some msg =>
    by_cases hm : x.cfg.mode = .throw
    · simp only [endError, hm, if_true] at hx
      simp only [hm, if_true, hx] at hpost ⊢
      obtain ⟨s', e1, e2, e3, e4⟩ := hpost
      rw [onNext_exc (Conv.onSpl_exc e1)]
      refine .exc ⟨hm, ?_, .inr ⟨hc, e2.resplitting.trans hres, fun _ => (e4 hml).trans huq⟩⟩
      refine RBase.setSpl hb (e2.len.trans hlen) ?_ (by intro cs h; cases h)
      rw [e3, herr, hm]; exact hb.next.serr
    · simp only [endError, hm, if_false] at hx
      simp only [hm, if_false, hx] at hpost ⊢
      obtain ⟨s', e1, e2, e3, e4⟩ := hpost
      obtain ⟨k1, k2, k3⟩ := key s' e2 e4
      rw [onNext_ok (Conv.onSpl_ok e1)]
      refine .ok ⟨RBase.setSpl hb (e2.len.trans hlen) (by rw [e3, herr, hb.next.serr]) (by intro cs h; cases h),
        ⟨s', rfl, k1, e2.resplitting.trans hres, e2.len.trans hlen, k3, e1⟩, rfl, rfl, rfl⟩

/-! ## The quote loop -/

/-- At the head of the quote loop: the text in the buffer ends inside a quoted field. -/
structure QInv (x : Ctx) (fs : List Bytes) (acc : Bytes) (n o : Nat) (tail : Bytes) (s : Reader) (a : MRd) : Prop where
  base : RBase x s a
  spl : ∃ T, Spl.Left x.cfg 0 n T [] fs (.openQuote acc) o false s.next.conv.spl ∧ s.next.conv.spl.mem.drop n = NUL :: T
  idle : s.next.conv.spl.resplitting = false
  cur : s.cur.Idle x.cfg
  size : n ≤ s.nextLineSize ∧ s.nextLineSize < s.next.conv.spl.mem.length
  crlf : s.crlf = a.crlf
  plain : a.todo = [] ∨ (tail = (s.next.conv.spl.mem.drop (n - o + acc.length)).take (s.nextLineSize - n) ∧ s.Room)

theorem RBase.size {x : Ctx} {s : Reader} {a : MRd} (h : RBase x s a) (n : Nat) :
    RBase x { s with nextLineSize := n } a :=
  ⟨h.cur, h.next, h.selok, h.helper, h.todo, h.ln, h.done, h.curr, h.chars⟩

theorem M.bind_unit {σ : Type} (m : M σ Unit) (s : σ) : (m >>= fun _ => pure ()) s = m s := by
  rw [M.bind_apply]
  cases m s <;> rfl

theorem cutNul_of_not_mem {t : Bytes} (h : NUL ∉ t) : cutNul t = t := by
  unfold cutNul
  induction t with
  | nil => rfl
  | cons b t ih =>
    simp only [List.mem_cons, not_or] at h
    rw [List.takeWhile_cons, if_pos (by simpa using fun hn => h.1 hn.symm), ih h.2]

theorem cutNul_length_le (t : Bytes) : (cutNul t).length ≤ t.length := by
  unfold cutNul
  exact (List.takeWhile_sublist _).length_le

theorem leftover_eq {A t R more : Bytes} {p0 p n N : Nat} (h0 : A.length = p0) (h1 : p0 ≤ p) (h2 : p ≤ p0 + more.length)
    (h3 : N - n = t.length - more.length) (h4 : more.length ≤ t.length) :
    MRd.leftover t more (p - p0) = ((A ++ (t ++ R)).drop p).take (N - n) := by
  unfold MRd.leftover
  rw [h3, List.drop_append, List.drop_of_length_le (l := A) (by omega), List.nil_append, h0,
    List.drop_append_of_le_length (by omega), List.take_append_of_le_length (by simp; omega)]

set_option maxHeartbeats 400000 in
theorem quoteLoop_sim {x : Ctx} (hx : x.Ok) (hml : x.cfg.multiline = true) :
    ∀ (f limit : Nat) (fs : List Bytes) (acc : Bytes) (n o : Nat) (tail : Bytes) (s : Reader) (a : MRd),
    a.todo.length < f → QInv x fs acc n o tail s a →
    VSim (fun _ => PQ x) (PE x) (Reader.quoteLoop x f limit s) (MRd.quoteLoop x f limit fs acc n o tail a) := by
  intro f
  induction f with
  | zero => intro limit fs acc n o tail s a hf; omega
  | succ f ih =>
    intro limit fs acc n o tail s a hf h
    obtain ⟨T, ⟨_, ds, P, q, G, hR, hq, hmem, hdata, huq, _, hesc, hend, ho⟩, hdrop⟩ := h.spl
    simp only [List.nil_append] at hdata
    have hn : P.length + 1 + acc.length + G.length = n := by
      have h1 := congrArg List.length hdrop
      have h2 := congrArg List.length hmem
      simp at h1 h2; omega
    unfold Reader.quoteLoop MRd.quoteLoop
    simp only [M.get_bind, huq, if_true]
    rw [if_neg (by have := h.size; omega)]
    simp only [M.modify_bind]
    generalize hs1 : ({ s with nextLineSize := s.nextLineSize - s.next.conv.spl.escaped } : Reader) = s1
    have hb1 : RBase x s1 a := by rw [← hs1]; exact h.base.size _
    have hsp1 : s1.next = s.next := by rw [← hs1]
    have hcur1 : s1.cur = s.cur := by rw [← hs1]
    have hcr1 : s1.crlf = a.crlf := by rw [← hs1]; exact h.crlf
    unfold Reader.multilineLimitReached
    by_cases hl : x.cfg.mlLimit > 0 ∧ limit ≥ x.cfg.mlLimit
    · rw [if_pos hl, if_pos hl, M.bind_assoc_apply, ← M.bind_unit (MRd.failLimit x.cfg)]
      refine (failLimit_sim hb1 (by rw [hcur1]; exact h.cur) (by rw [hsp1]; exact h.idle)).bind fun _ s' a' hq => ?_
      exact .ok hq
    · rw [if_neg hl, if_neg hl]
      simp only [M.pure_bind', Bool.false_eq_true, if_false]
      cases ht : a.todo with
      | nil =>
        obtain ⟨s', a', e1, e2, e3, e4⟩ := Reader.append_nil hx.fine hb1 ht
        rw [M.bind_of_ok e1, M.bind_of_ok e2]
        simp only [Bool.false_eq_true, if_false]
        exact (failOpen_sim e3 e4).2
      | cons l ls =>
        obtain ⟨htail, hroom⟩ := h.plain.resolve_left (by rw [ht]; simp)
        have hsz := h.size
        have hp0 : n - o + acc.length = P.length + 1 + acc.length := by omega
        have hm1 : s1.next.conv.spl.mem = (P ++ q :: acc) ++ (G ++ NUL :: T) := by rw [hsp1, hmem]; simp
        have hml1 : s1.next.conv.spl.mem.length = P.length + 1 + acc.length + (G ++ NUL :: T).length := by rw [hm1]; simp; omega
        have htl : tail = (G ++ NUL :: T).take (s.nextLineSize - n) := by
          rw [htail, hp0, ← hsp1, hm1, List.drop_left' (by simp; omega)]
        have htlen : tail.length = s.nextLineSize - n := by
          rw [htl, List.length_take]
          have := hsz.2
          rw [← hsp1, hml1] at this
          omega
        have hn1 : s1.nextLineSize = P.length + 1 + acc.length + tail.length := by
          rw [← hs1]; show s.nextLineSize - _ = _; omega
        have ht1 : s1.next.conv.spl.mem.take s1.nextLineSize = P ++ q :: (acc ++ tail) := by
          rw [hm1, hn1, show P.length + 1 + acc.length + tail.length = (P ++ q :: acc).length + tail.length by simp; omega,
            List.take_append, List.take_of_length_le (by simp), Nat.add_sub_cancel_left, htlen, ← htl]
          simp
        obtain ⟨s2, a2, T2, e1, e2, e3, e4, e5, e6, e7, e8, e9, e10⟩ := Reader.append_cons hx.fine hb1 ht
          (by rw [hn1, hml1]; have := hsz.2; rw [← hsp1, hml1] at this; omega) (by
            intro hc
            rw [hcr1, ← h.crlf] at hc
            have := hroom hc
            rw [hsp1, hn1]; omega) hcr1
        rw [M.bind_of_ok e1, M.bind_of_ok e2]
        simp only [if_true]
        rw [ht1] at e9 e10
        have hlook : a2.look.drop a.look.length = Reader.eolBytes a.crlf ++ chop l := by
          rw [e8, List.append_assoc, List.drop_left' rfl]
        -- the lines appended because of escapes
        have hE : VSim (fun (o : Option Nat) s' a' => match o with
              | none => PQ x s' a'
              | some _ => EInv x (P ++ [q]) (acc ++ tail) a.look.length s2 a2 s' a')
            (PE x) (Reader.escapeLoopIf x (limit + 1) s2) (MRd.escapeLoopIf x (acc ++ tail) a.look.length (limit + 1) a2) := by
          have hinv : EInv x (P ++ [q]) (acc ++ tail) a.look.length s2 a2 s2 a2 := by
            refine { base := e3, buf := ?_, lt := ?_, le := ?_, crlf := e5, room := .inr e6, grown := .refl _, more := ⟨[], by simp⟩, fewer := Nat.le_refl _, term := .inl ⟨rfl, rfl⟩ }
            · rw [e9, e10, List.take_left' rfl, hlook]; simp
            · rw [e9, e10]; simp
            · rw [e8]; simp
          unfold Reader.escapeLoopIf MRd.escapeLoopIf
          split
          · refine escapeLoop_sim hx.fine ?_ (by rw [e4.cur, hcur1]; exact h.cur)
              (by rw [e4.idle.1, hsp1]; exact h.idle) _ _ _ _ hinv
            intro z hz
            simp at hz
            subst hz
            exact hx.wf.qe _ hq
          · exact .ok hinv
        refine hE.bind fun o' s3 a3 h3 => ?_
        cases o' with
        | none => exact .ok h3
        | some limit' =>
          simp only at h3
          simp only [M.get_bind]
          have hbuf3 := h3.buf
          generalize htt : tail ++ a3.look.drop a.look.length = t at *
          rw [List.append_assoc acc, htt] at hbuf3
          have hmnul : NUL ∉ cutNul t := cutNul_nul t
          have hmle := cutNul_length_le t
          obtain ⟨T3, hT3⟩ : ∃ T, s3.next.conv.spl.mem = s3.next.conv.spl.mem.take s3.nextLineSize ++ NUL :: T := by
            rcases h3.term with ⟨rfl, rfl⟩ | ⟨_, h⟩
            · exact ⟨T2, by rw [e9, e10, List.take_left' rfl]⟩
            · exact h
          rw [hbuf3] at hT3
          have hnls3 : s3.nextLineSize = P.length + 1 + acc.length + t.length := by
            have h1 := congrArg List.length hbuf3
            have h2 := h3.lt
            simp at h1; omega
          obtain ⟨T4, hT4⟩ := cutNul_append_nul t T3
          have hmT : s3.next.conv.spl.mem = (P ++ q :: acc) ++ (t ++ NUL :: T3) := by rw [hT3]; simp
          generalize hmo : cutNul t = more at *
          have hg := e4.trans h3.grown
          have hconv := hg.conv
          rw [hsp1] at hconv
          generalize hmm : s3.next.conv.spl.mem = mem3 at hconv
          generalize s3.next.conv.spl.gen = gen3 at hconv
          have hmem3 : mem3 = P ++ (q :: (acc ++ (more ++ NUL :: T4))) := by rw [← hmm, hmT, hT4]; simp
          have hpost := Spl.resplit_spec (c := x.cfg) hx.wf (delim := x.delim) (P := P) (a := acc) (r := more) (T := T4) (q := q)
            (s := s3.next.conv.spl) (newSize := s3.nextLineSize) (ds := ds) hx.delim hx.delim0 hmnul hq hml
            (hmm.trans hmem3) (by rw [hconv]; exact hdata) (by rw [hconv]; exact huq)
            (by rw [hconv]; show s.next.conv.spl.end_ = _ + s.next.conv.spl.escaped; omega)
            (by rw [hconv]; exact h.idle) (by omega)
          have hset := settle_sim (x := x) (s := s3) (a := a3) (m := Spl.resplit x.cfg s3.nextLineSize x.delim) (fs0 := fs) h3.base hml
            (by rw [hg.cur, hcur1]; exact h.cur) hpost rfl rfl rfl (by show s3.next.conv.spl.resplitting = false; rw [hconv]; exact h.idle) rfl
            (by
              show Ranges s3.next.conv.spl.mem 0 P.length ds fs
              refine Ranges.congr (mem := s.next.conv.spl.mem) ?_ hR (Nat.le_refl _)
              rw [hmm, hmem3, hmem]; simp)
            (by
              show s3.next.conv.spl.mem.drop _ = _
              rw [hmm, hmem3, show P ++ q :: (acc ++ (more ++ NUL :: T4)) = (P ++ q :: (acc ++ more)) ++ NUL :: T4 by simp]
              exact List.drop_left' (by simp; omega))
          rw [← show n - o + acc.length + more.length = P.length + 1 + acc.length + more.length by omega] at hset
          refine hset.bind fun _ s4 a4 h4 => ?_
          obtain ⟨sp, rfl, hL, hr4, hl4, hd4, hrun⟩ := h4.spl
          obtain ⟨m1, m2, m3⟩ := h4.mach
          cases f with
          | zero => rw [ht] at hf; simp at hf
          | succ f =>
          have hclosed : sp.unterminatedQuote = false →
              VSim (fun _ => PQ x) (PE x) (Reader.quoteLoop x (f + 1) limit' (s3.setSpl sp)) (.ok () a4) := by
            intro hu
            unfold Reader.quoteLoop
            simp only [M.get_bind]
            rw [if_neg (by show ¬ sp.unterminatedQuote = true; rw [hu]; simp)]
            exact .ok ⟨h4.base, .inr ⟨by show s3.cur.Idle _; rw [hg.cur, hcur1]; exact h.cur, hr4, fun _ => hu⟩⟩
          cases hend' : (decode x.cfg x.delim .quoted acc more).2 with
          | openQuote acc' =>
            rw [hend'] at hL
            have hL' := hL
            obtain ⟨_, ds', P', q', G', _, _, hmem', _, _, _, hesc', hend', ho'⟩ := hL'
            have hn' : P'.length + 1 + acc'.length + G'.length = n - o + acc.length + more.length := by
              have h1 := congrArg List.length hd4
              have h2 := congrArg List.length hmem'
              simp at h1 h2; omega
            obtain ⟨hrest, hmono⟩ := Spl.resplit_rest (ds := ds) (b := P.length + 1) hx.delim (by rw [hq]; simp) hml
              (by rw [hconv]; exact hdata) (by rw [hconv]; exact huq) (by omega) hrun
            have hp0' : s3.next.conv.spl.end_ - s3.next.conv.spl.escaped = n - o + acc.length := by
              rw [hconv]; show s.next.conv.spl.end_ - s.next.conv.spl.escaped = _; omega
            rw [hp0', show sp.end_ - sp.escaped = P'.length + 1 + acc'.length by omega] at hmono
            rw [show sp.end_ - sp.escaped = P'.length + 1 + acc'.length by omega] at hrest
            refine ih _ _ _ _ _ _ _ _ ?_ ⟨h4.base, ⟨T4, ?_, ?_⟩, hr4, ?_, ?_, ?_, h3.room.imp (fun h => m2.trans h) fun hroom3 => ⟨?_, ?_⟩⟩
            · have := h3.fewer
              rw [e7] at this
              rw [ht] at hf
              simp at hf
              rw [m2]; omega
            · exact hL
            · exact hd4
            · show s3.cur.Idle _; rw [hg.cur, hcur1]; exact h.cur
            · have := h3.lt
              refine ⟨by show _ ≤ s3.nextLineSize; omega, ?_⟩
              show s3.nextLineSize < sp.mem.length
              rw [hl4]; exact this
            · rw [m3]; exact h3.crlf
            · show MRd.leftover t more _ = (sp.mem.drop _).take (s3.nextLineSize - _)
              rw [show n - o + acc.length + more.length - openLen x.cfg x.delim .quoted acc more + acc'.length
                = P'.length + 1 + acc'.length by omega, hrest, hmT]
              refine leftover_eq ?_ ?_ ?_ ?_ hmle
              · simp; omega
              · exact hmono
              · omega
              · omega
            · intro hc
              show s3.nextLineSize + 2 ≤ sp.mem.length
              rw [hl4]
              exact hroom3 hc
          | mismatch _ _ => rw [hend'] at hL; obtain ⟨_, _, _, _, _, _, hu⟩ := hL; exact hclosed hu
          | eol => rw [hend'] at hL; obtain ⟨_, _, _, _, hu⟩ := hL; exact hclosed hu
          | eolEscape => rw [hend'] at hL; obtain ⟨_, _, _, _, hu⟩ := hL; exact hclosed hu
          | openEscape => rw [hend'] at hL; obtain ⟨_, _, _, _, hu⟩ := hL; exact hclosed hu

/-- with multiline -/
theorem parseSim_many {x : Ctx} (hx : x.Ok) (hml : x.cfg.multiline = true) : ParseSim x := by
  intro s a h hl hc hi hpl
  have hpl := hpl hml
  suffices hv : VSim (fun _ => PQ x) (PE x) (Reader.parse x s) (MRd.parse x a) by
    unfold VSim at hv
    unfold RSim
    cases hm : MRd.parse x a with
    | ok b t => rw [hm] at hv; obtain ⟨s', h1, h2⟩ := hv; exact ⟨b, s', h1, trivial, h2⟩
    | exc e t => rw [hm] at hv; obtain ⟨s', h1, h2⟩ := hv; exact ⟨s', h1, h2⟩
    | ub => trivial
    | nofuel => trivial
  have hE : VSim (fun (o : Option Nat) s' a' => match o with
        | none => PQ x s' a'
        | some _ => EInv x [] [] 0 s a s' a')
      (PE x) (Reader.escapeLoopIf x 0 s) (MRd.escapeLoopIf x [] 0 0 a) := by
    have hinv : EInv x [] [] 0 s a s a := by
      refine { base := h, buf := ?_, lt := hl.lt, le := Nat.zero_le _, crlf := hl.crlf, room := ?_, grown := .refl _, more := ⟨[], by simp⟩, fewer := Nat.le_refl _, term := .inl ⟨rfl, rfl⟩ }
      · simpa using hl.look
      · exact hpl.symm
    unfold Reader.escapeLoopIf MRd.escapeLoopIf
    split
    · exact escapeLoop_sim hx.fine (by intro z hz; simp at hz) hc hi.1 _ _ _ _ hinv
    · exact .ok hinv
  unfold Reader.parse MRd.parse
  refine hE.bind fun o s1 a1 h1 => ?_
  cases o with
  | none => exact .ok h1
  | some limit =>
    simp only at h1
    simp only [M.get_bind]
    have hbuf : s1.next.conv.spl.mem.take s1.nextLineSize = a1.look := by simpa using h1.buf
    obtain ⟨T, hT⟩ : ∃ T, s1.next.conv.spl.mem = cutNul a1.look ++ NUL :: T := by
      rcases h1.term with ⟨rfl, rfl⟩ | ⟨hne, T, hT⟩
      · exact hl.term
      · rw [hbuf] at hT
        rw [hT]; exact cutNul_append_nul _ _
    have hcur1 : s1.cur.Idle x.cfg := by rw [h1.grown.cur]; exact hc
    have hidle : s1.next.conv.spl.resplitting = false := h1.grown.idle.1.trans hi.1
    have huq : s1.next.conv.spl.unterminatedQuote = false := h1.grown.idle.2.trans (hi.2 hml)
    have hnl : s1.nextLineSize = a1.look.length := by
      have h2 := congrArg List.length hbuf
      have h3 := h1.lt
      simp at h2; omega
    have htl := cutNul_length_le a1.look
    generalize htext : cutNul a1.look = text at *
    have htnul : NUL ∉ text := by rw [← htext]; exact cutNul_nul _
    by_cases ht : text = []
    · subst ht
      have hsplit : Reader.onNext (Conv.split x.cfg x.delim) s1 =
          .ok () (s1.setSpl { s1.next.conv.spl with data := [] }) := by
        refine onNext_ok ?_
        unfold Conv.split
        simp only [M.modify_bind]
        rw [M.bind_of_ok (Conv.onSpl_ok (s := { s1.next.conv with spl := { s1.next.conv.spl with data := [] } })
          (Spl.rd_at (p := 0) (A := []) (x := NUL) (B := T) hT rfl))]
        rfl
      rw [M.bind_of_ok hsplit]
      rw [M.bind_of_ok (show MRd.splitText x.cfg x.delim [] a1 = .ok () _ from rfl)]
      simp only [ne_eq, not_true_eq_false, and_false, if_false]
      have hq : PQ x (s1.setSpl { s1.next.conv.spl with data := [] }) { a1 with next := { a1.next with cols := some [] } } := by
        refine ⟨RBase.setSpl h1.base rfl h1.base.next.serr ?_, .inr ⟨hcur1, hidle, fun _ => huq⟩⟩
        intro cs hcs
        cases hcs
        exact ⟨⟨.inr rfl, by simp⟩, rfl⟩
      split
      · obtain ⟨n, hn⟩ : ∃ n, Reader.bound x = n + 1 := ⟨_, rfl⟩
        rw [hn]
        unfold Reader.quoteLoop
        simp only [M.get_bind]
        rw [if_neg (by show ¬ s1.next.conv.spl.unterminatedQuote = true; rw [huq]; simp)]
        exact .ok hq
      · exact .ok hq
    · have hsplit : Reader.onNext (Conv.split x.cfg x.delim) s1 = Reader.onNext (Conv.onSpl (Spl.split x.cfg x.delim)) s1 := by
        obtain ⟨b, t, rfl⟩ := List.exists_cons_of_ne_nil ht
        unfold Reader.onNext
        have : Conv.split x.cfg x.delim s1.next.conv = Conv.onSpl (Spl.split x.cfg x.delim) s1.next.conv := by
          unfold Conv.split
          simp only [M.modify_bind]
          rw [M.bind_of_ok (Conv.onSpl_ok (s := { s1.next.conv with spl := { s1.next.conv.spl with data := [] } })
            (Spl.rd_at (p := 0) (A := []) (x := b) (B := t ++ NUL :: T) hT rfl))]
          rw [if_neg (fun h => htnul (by simp [h]))]
          rfl
        rw [this]
      have hpost := split_post hx.wf hx.delim hx.delim0 (s := s1.next.conv.spl) ⟨hT, htnul, hidle⟩
      have hset := settle_sim (x := x) (s := s1) (a := a1) (m := Spl.split x.cfg x.delim) (fs0 := [])
        (fs := (decodeRow x.cfg x.delim text).1) (e := (decodeRow x.cfg x.delim text).2) h1.base hml
        hcur1 hpost rfl rfl rfl hidle rfl (by simp [Spl.start0, Ranges])
        (by
          show s1.next.conv.spl.mem.drop _ = _
          rw [hT]; exact List.drop_left' rfl)
      rw [List.nil_append, ← MRd.splitText_settle ht] at hset
      rw [M.bind_apply, hsplit, ← M.bind_apply]
      refine hset.bind fun _ s2 a2 h2 => ?_
      obtain ⟨sp, rfl, hL, hr4, hl4, hd4, hrun⟩ := h2.spl
      obtain ⟨m1, m2, m3⟩ := h2.mach
      have hQ : sp.unterminatedQuote = false → PQ x (s1.setSpl sp) a2 := fun hu =>
        ⟨h2.base, .inr ⟨hcur1, hr4, fun _ => hu⟩⟩
      by_cases hq : x.cfg.multiline ∧ x.cfg.quote ≠ none
      · rw [if_pos hq, if_pos ⟨hq.1, hq.2, ht⟩]
        have hclosed : sp.unterminatedQuote = false →
            VSim (fun _ => PQ x) (PE x) (Reader.quoteLoop x (Reader.bound x) limit (s1.setSpl sp)) (.ok () a2) := by
          intro hu
          obtain ⟨n, hn⟩ : ∃ n, Reader.bound x = n + 1 := ⟨_, rfl⟩
          rw [hn]
          unfold Reader.quoteLoop
          simp only [M.get_bind]
          rw [if_neg (by show ¬ sp.unterminatedQuote = true; rw [hu]; simp)]
          exact .ok (hQ hu)
        cases hend : (decodeRow x.cfg x.delim text).2 with
        | openQuote acc =>
          rw [hend] at hL
          have hL' := hL
          obtain ⟨_, ds', P', q', G', _, _, hmem', _, _, _, hesc', hend', ho'⟩ := hL'
          have hn' : P'.length + 1 + acc.length + G'.length = text.length := by
            have h1 := congrArg List.length hd4
            have h2 := congrArg List.length hmem'
            simp at h1 h2; omega
          have hrest := Spl.split_rest hx.delim hidle hrun
          rw [show sp.end_ - sp.escaped = P'.length + 1 + acc.length by omega] at hrest
          refine quoteLoop_sim hx hml _ _ _ _ _ _ _ _ _ h2.base.todo_lt ⟨h2.base, ⟨T, hL, hd4⟩, hr4, hcur1, ?_, ?_, ?_⟩
          · exact ⟨by show _ ≤ s1.nextLineSize; omega, by show s1.nextLineSize < sp.mem.length; rw [hl4]; exact h1.lt⟩
          · rw [m3]; exact h1.crlf
          · refine h1.room.imp (fun h => m2.trans h) fun hroom => ⟨?_, ?_⟩
            · show MRd.leftover a1.look text _ = (sp.mem.drop _).take (s1.nextLineSize - _)
              unfold MRd.leftover
              rw [show text.length - openLenRow x.cfg x.delim text + acc.length = P'.length + 1 + acc.length by omega, hrest,
                ← hbuf, List.drop_take, List.take_take, List.length_take, hnl]
              congr 1
              have := h1.lt
              omega
            · intro hc
              show s1.nextLineSize + 2 ≤ sp.mem.length
              rw [hl4]
              exact hroom hc
        | mismatch _ _ => rw [hend] at hL; obtain ⟨_, _, _, _, _, _, hu⟩ := hL; exact hclosed hu
        | eol => rw [hend] at hL; obtain ⟨_, _, _, _, hu⟩ := hL; exact hclosed hu
        | eolEscape => rw [hend] at hL; obtain ⟨_, _, _, _, hu⟩ := hL; exact hclosed hu
        | openEscape => rw [hend] at hL; obtain ⟨_, _, _, _, hu⟩ := hL; exact hclosed hu
      · rw [if_neg hq, if_neg (fun h => hq ⟨h.1, h.2.1⟩)]
        refine .ok (hQ ?_)
        cases hend : (decodeRow x.cfg x.delim text).2 with
        | openQuote acc =>
          rw [hend] at hL
          obtain ⟨_, _, _, _, _, _, hqq, _⟩ := hL
          exact absurd ⟨hml, by rw [hqq]; simp⟩ hq
        | mismatch _ _ => rw [hend] at hL; obtain ⟨_, _, _, _, _, _, hu⟩ := hL; exact hu
        | eol => rw [hend] at hL; obtain ⟨_, _, _, _, hu⟩ := hL; exact hu
        | eolEscape => rw [hend] at hL; obtain ⟨_, _, _, _, hu⟩ := hL; exact hu
        | openEscape => rw [hend] at hL; obtain ⟨_, _, _, _, hu⟩ := hL; exact hu

end Ssp
