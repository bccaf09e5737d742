import Verif.Proofs.Machine
import Verif.Proofs.Line
/-!
# Reading ahead: the model of the reader simulates the row machine
-/
namespace Ssp
open Spec

/-! ## Relation -/

structure SlotRel (sl : Slot) (b : ASlot) (sel : List Nat) (ncols : Nat) : Prop where
  err : sl.conv.err = b.err
  serr : sl.conv.spl.err = b.serr
  sel : sl.conv.mappings = sel
  ncols : sl.conv.ncols = ncols
  sized : sl.size = sl.conv.spl.mem.length
  cols : ∀ cs, b.cols = some cs → Readable sl.conv.spl ∧ sl.conv.spl.columns = cs

/-- `curr_char_` after `k` reads at the end of the input -/
def Src.seek (src : Src) (off : Nat) : Nat → Nat
  | 0 => off
  | k + 1 => src.eofCurr (src.seek off k)

theorem Src.seek_buf {src : Src} (h : src.isBuf) (off : Nat) : ∀ k, src.seek off k = off
  | 0 => rfl
  | k + 1 => by
    cases src with
    | file u d => exact h.elim
    | buf p n => exact Src.seek_buf (src := .buf p n) h off k

/-- What holds between a reader and the machine at any time. -/
structure RBase (x : Ctx) (s : Reader) (a : MRd) : Prop where
  cur : SlotRel s.cur a.cur a.sel a.ncols
  next : SlotRel s.next a.next a.sel a.ncols
  selok : ∀ i ∈ a.sel, i < a.ncols
  helper : s.helperSize = s.helper.length
  todo : a.todo = rawLines (x.src.unread s.curr s.fpos)
  ln : s.lineNumber = a.ln
  done : a.tries > 0 → a.todo = []
  curr : s.curr = x.src.seek a.off a.tries
  chars : s.charsRead = x.src.seek a.pos (a.tries - 1)

theorem RBase.curr0 {x : Ctx} {s : Reader} {a : MRd} (h : RBase x s a) (ht : a.tries = 0) : s.curr = a.off := by
  have := h.curr; rw [ht] at this; exact this

theorem RBase.pos {x : Ctx} {s : Reader} {a : MRd} (h : RBase x s a) (ht : a.tries ≤ 1 ∨ x.src.isBuf) : s.charsRead = a.pos := by
  have := h.chars
  rcases ht with ht | ht
  · rw [show a.tries - 1 = 0 by omega] at this; exact this
  · rw [Src.seek_buf ht] at this; exact this

/-- The next line buffer holds the text read ahead. -/
structure RLook (s : Reader) (a : MRd) : Prop where
  look : s.next.conv.spl.mem.take s.nextLineSize = a.look
  lt : s.nextLineSize < s.next.conv.spl.mem.length
  term : ∃ T, s.next.conv.spl.mem = cutNul a.look ++ NUL :: T
  crlf : s.crlf = a.crlf

/-- A splitter that is not in the middle of something. -/
def Spl.Idle (s : Spl) : Prop := s.resplitting = false ∧ s.unterminatedQuote = false

/-! ## Removing the terminator -/

theorem eolOf_cases (l : Bytes) : eolOf l = [] ∨ eolOf l = [LF] ∨ eolOf l = [CR, LF] := by
  unfold eolOf; split
  · split <;> simp
  · simp

theorem eolSize_spec {l R : Bytes} (hl : l ≠ []) :
    Reader.eolSize (l ++ R) l.length = some ((chop l).length, eolOf l == [CR, LF]) := by
  have hlen : (chop l).length = l.length - (eolOf l).length := by
    have := congrArg List.length (chop_eol l)
    simp at this; omega
  rcases List.eq_nil_or_concat l with h | ⟨l', z, rfl⟩
  · exact absurd h hl
  · rw [hlen]
    simp only [List.concat_eq_append] at *
    have h1 : (l' ++ [z] ++ R)[(l' ++ [z]).length - 1]? = some z := by simp
    simp only [Reader.eolSize, List.length_append, List.length_singleton] at h1 ⊢
    rw [if_neg (by omega), h1]
    simp only [eolOf, List.getLast?_append, List.getLast?_singleton, Option.some_or, Option.some.injEq,
      List.dropLast_concat]
    by_cases hz : z = LF
    · simp only [hz, ne_eq, not_true_eq_false, if_false, if_true]
      rcases List.eq_nil_or_concat l' with rfl | ⟨l'', y, rfl⟩
      · simp
      · simp only [List.concat_eq_append] at *
        have h2 : (l'' ++ [y] ++ [LF] ++ R)[(l'' ++ [y]).length + 1 - 2]? = some y := by
          simp
        rw [h2]
        simp only [List.length_append, List.length_singleton, List.getLast?_append, List.getLast?_singleton,
          Option.some_or, Option.some.injEq]
        by_cases hy : y = CR
        · simp [hy]
        · simp [hy]
    · simp [hz]

/-- the buffer behind `remove_eol` -/
def tailOf (l R : Bytes) : Bytes := (eolOf l).tail ++ (if eolOf l = [] then R else NUL :: R)

theorem removed_eq (l R : Bytes) : (if (chop l).length = l.length then l ++ NUL :: R
    else (l ++ NUL :: R).set (chop l).length NUL) = chop l ++ NUL :: tailOf l R := by
  have hc := chop_eol l
  unfold tailOf
  generalize chop l = t at *
  rcases eolOf_cases l with h | h | h <;> rw [h] at hc ⊢
  · simp at hc; subst hc; simp
  · subst hc; simp
  · subst hc; simp

namespace Reader

theorem wrNext_ok {p : Nat} {b : Byte} {s : Reader} (h : p < s.next.conv.spl.mem.length) :
    wrNext p b s = .ok () { s with next := { s.next with conv := { s.next.conv with spl :=
      { s.next.conv.spl with mem := s.next.conv.spl.mem.set p b } } } } := by
  simp [wrNext, h]

/-- the reader with other contents of the next line buffer -/
def setMem (s : Reader) (m : Bytes) : Reader :=
  { s with next := { s.next with conv := { s.next.conv with spl := { s.next.conv.spl with mem := m } } } }

theorem removeEolNext_spec {l R : Bytes} {s : Reader} (hl : l ≠ []) (hm : s.next.conv.spl.mem = l ++ NUL :: R) :
    removeEolNext l.length s = .ok (chop l).length
      ({ s with crlf := eolOf l == [CR, LF] }.setMem (chop l ++ NUL :: tailOf l R)) := by
  unfold removeEolNext
  simp only [M.get_bind]
  rw [hm, eolSize_spec hl]
  simp only [M.modify_bind]
  have hr := removed_eq l R
  by_cases h : (chop l).length = l.length
  · rw [if_pos h] at hr ⊢
    rw [← hr]
    simp only [M.pure_apply, setMem]
    rw [← hm]
  · rw [if_neg h] at hr ⊢
    rw [← hr]
    have hlt : (chop l).length < (l ++ NUL :: R).length := by
      have := congrArg List.length (chop_eol l)
      simp at this ⊢; omega
    rw [M.bind_of_ok (wrNext_ok (by simpa [hm] using hlt))]
    simp [setMem, hm]

end Reader

theorem cutNul_append_nul (t R : Bytes) : ∃ T, t ++ NUL :: R = cutNul t ++ NUL :: T := by
  induction t with
  | nil => exact ⟨R, rfl⟩
  | cons b t ih =>
    obtain ⟨T, hT⟩ := ih
    unfold cutNul at *
    by_cases hb : b = NUL
    · exact ⟨t ++ NUL :: R, by simp [hb]⟩
    · exact ⟨T, by simp [hb, hT]⟩

theorem cutNul_take {m t : Bytes} {n : Nat} (h : m.take n = t) (hl : n < m.length) (h0 : ∃ k, k ≤ n ∧ m[k]? = some NUL) :
    ∃ T, m = cutNul t ++ NUL :: T := by
  induction m generalizing t n with
  | nil => simp at hl
  | cons b m ih =>
    cases n with
    | zero =>
      simp at h; subst h
      obtain ⟨k, hk, hk'⟩ := h0
      have : k = 0 := by omega
      subst this
      simp at hk'
      exact ⟨m, by simp [cutNul, hk']⟩
    | succ n =>
      simp only [List.take_succ_cons] at h
      subst h
      by_cases hb : b = NUL
      · exact ⟨m, by simp [cutNul, hb]⟩
      · obtain ⟨k, hk, hk'⟩ := h0
        cases k with
        | zero => simp at hk'; exact absurd hk' hb
        | succ k =>
          obtain ⟨T, hT⟩ := ih (t := m.take n) (n := n) rfl (by simpa using hl) ⟨k, by omega, by simpa using hk'⟩
          refine ⟨T, ?_⟩
          simp only [cutNul] at *
          simp only [List.takeWhile, ne_eq, hb, not_false_eq_true, decide_true, List.cons_append]
          exact congrArg _ hT

/-! ## The loop -/

/-- everything of a reader that reading ahead does not touch -/
structure ReadKeeps (s s' : Reader) : Prop where
  cur : s'.cur = s.cur
  helper : s'.helper = s.helper
  helperSize : s'.helperSize = s.helperSize
  conv : s'.next.conv = { s.next.conv with spl :=
    { s.next.conv.spl with mem := s'.next.conv.spl.mem, gen := s'.next.conv.spl.gen } }

theorem ReadKeeps.trans {s s' s'' : Reader} (h : ReadKeeps s s') (h' : ReadKeeps s' s'') : ReadKeeps s s'' where
  cur := h'.cur.trans h.cur
  helper := h'.helper.trans h.helper
  helperSize := h'.helperSize.trans h.helperSize
  conv := by rw [h'.conv, h.conv]

open Reader Io in
theorem readNextLoop_spec {x : Ctx} (hf : x.src.Fine) : ∀ (f : Nat) (s : Reader) (a : MRd),
    RBase x s a → a.next.cols = none → a.todo.length < f →
    ∃ s', readNextLoop x f s = .ok (MRd.readGo x.cfg.ignoreEmpty a.todo a).1 s' ∧
      RBase x s' (MRd.readGo x.cfg.ignoreEmpty a.todo a).2 ∧
      ((MRd.readGo x.cfg.ignoreEmpty a.todo a).1 = true ∨ RLook s a → RLook s' (MRd.readGo x.cfg.ignoreEmpty a.todo a).2) ∧
      ReadKeeps s s' ∧ ((MRd.readGo x.cfg.ignoreEmpty a.todo a).1 = false → s'.nextLineSize = s.nextLineSize) ∧
      ((MRd.readGo x.cfg.ignoreEmpty a.todo a).1 = true → s'.crlf = true →
        s'.nextLineSize + 2 ≤ s'.next.conv.spl.mem.length) := by
  intro f
  induction f with
  | zero => intro s a _ _ h; omega
  | succ f ih =>
    intro s a hr hc hlen
    -- the state at the call of `get_line`
    generalize hs1 : ({ s with lineNumber := s.lineNumber + 1, charsRead := s.curr }.setMem
      (s.next.conv.spl.mem.set 0 NUL) : Reader) = s1
    have hgo : readNextLoop x (f + 1) s = (getLineNext x >>= fun r => match r with
        | none => pure false
        | some ssize => do
          let size ← removeEolNext ssize
          if x.cfg.ignoreEmpty ∧ size = 0 then readNextLoop x f
          else
            M.modify fun s => { s with nextLineSize := size }
            pure true) s1 := by
      simp only [readNextLoop, M.modify_bind, M.get_bind]
      by_cases hz : s.next.size > 0
      · rw [if_pos hz]
        rw [M.bind_of_ok (wrNext_ok (by simpa [← hr.next.sized] using hz))]
        simp only [M.modify_bind, ← hs1, setMem]
        rfl
      · rw [if_neg hz]
        have : s.next.conv.spl.mem = [] := List.eq_nil_of_length_eq_zero (by rw [← hr.next.sized]; omega)
        simp only [M.pure_bind', M.modify_bind, ← hs1, setMem, this, List.set_nil]
        simp only [← this]
        rfl
    rw [hgo]
    have hsz : s1.ioNext.Sized := by
      rw [← hs1]
      show s.next.size = (s.next.conv.spl.mem.set 0 NUL).length
      rw [List.length_set, hr.next.sized]
    have hun : x.src.unread s1.ioNext.curr s1.ioNext.fpos = x.src.unread s.curr s.fpos := by rw [← hs1]; rfl
    have hmem : s1.next.conv.spl.mem = s.next.conv.spl.mem.set 0 NUL := by rw [← hs1]; rfl
    cases htodo : a.todo with
    | nil =>
      have hu : x.src.unread s.curr s.fpos = [] := by
        by_cases h : x.src.unread s.curr s.fpos = []
        · exact h
        · have := hr.todo; rw [htodo, rawLines_cons h] at this; cases this
      obtain ⟨J, io, g1, g2, g3, g4, g5⟩ := getLine_eof (env := x.env) hf hsz (hun.trans hu)
      have hgl : getLineNext x s1 = .ok none (s1.setNext io) := by simp [getLineNext, g1]
      rw [M.bind_of_ok hgl]
      refine ⟨s1.setNext io, rfl, ?_, ?_, ?_, ?_, by intro h; cases h⟩
      · refine { cur := ?_, next := ?_, selok := ?_, helper := ?_, todo := ?_, ln := ?_, done := ?_, curr := ?_, chars := ?_ }
        · rw [← hs1]; exact hr.cur
        · refine ⟨?_, ?_, ?_, ?_, g3, ?_⟩
          · rw [← hs1]; exact hr.next.err
          · rw [← hs1]; exact hr.next.serr
          · rw [← hs1]; exact hr.next.sel
          · rw [← hs1]; exact hr.next.ncols
          · intro cs h; exact absurd (hc.symm.trans h) (by simp)
        · exact hr.selok
        · rw [← hs1]; exact hr.helper
        · show [] = rawLines (x.src.unread io.curr io.fpos); rw [g5]; rfl
        · rw [← hs1]; exact congrArg (· + 1) hr.ln
        · intro _; rfl
        · show io.curr = x.src.eofCurr (x.src.seek a.off a.tries)
          rw [g4, ← hr.curr, ← hs1]; rfl
        · rw [← hs1]; exact hr.curr
      · rintro (h | h)
        · simp [MRd.readGo] at h
        · have hm : (s1.setNext io).next.conv.spl.mem = s.next.conv.spl.mem.set 0 NUL ++ J := by
            have hne : s.next.conv.spl.mem ≠ [] := by intro h'; have := h.lt; rw [h'] at this; simp at this
            obtain ⟨b, r, hbr⟩ := List.exists_cons_of_ne_nil hne
            show io.mem = _
            have hm' : s1.ioNext.mem = NUL :: r := by show s1.next.conv.spl.mem = _; rw [hmem, hbr]; rfl
            rw [hm'] at g2
            rw [hbr]
            rcases g2 with g2 | g2 <;> rw [g2] <;> simp [stored]
          have hn : (s1.setNext io).nextLineSize = s.nextLineSize := by rw [← hs1]; rfl
          have hne : s.next.conv.spl.mem ≠ [] := by intro h'; have := h.lt; rw [h'] at this; simp at this
          obtain ⟨b, r, hbr⟩ := List.exists_cons_of_ne_nil hne
          have hlk : (s.next.conv.spl.mem.set 0 NUL ++ J).take s.nextLineSize = MRd.zap a.look := by
            have h1 := h.look
            have h2 := h.lt
            rw [hbr] at h1 h2 ⊢
            rw [← h1, MRd.zap]
            cases hk : s.nextLineSize with
            | zero => simp
            | succ k =>
              rw [hk] at h2
              simp only [List.set_cons_zero, List.cons_append, List.take_succ_cons]
              rw [List.take_append_of_le_length (by simp at h2; omega)]
          refine ⟨?_, ?_, ?_, ?_⟩
          · rw [hm, hn]; exact hlk
          · rw [hm, hn]; have := h.lt; simp; omega
          · rw [hm]
            refine cutNul_take hlk (by have := h.lt; simp; omega) ⟨0, Nat.zero_le _, by rw [hbr]; rfl⟩
          · rw [← hs1]; exact h.crlf
      · refine ⟨?_, ?_, ?_, ?_⟩ <;> rw [← hs1] <;> rfl
      · intro _; rw [← hs1]; rfl
    | cons l ls =>
      have hu : x.src.unread s.curr s.fpos ≠ [] := by
        intro h
        have := hr.todo; rw [htodo, h] at this; cases this
      have hl : l = upToLF (x.src.unread s.curr s.fpos) ∧
          ls = rawLines ((x.src.unread s.curr s.fpos).drop (upToLF (x.src.unread s.curr s.fpos)).length) := by
        have := hr.todo; rw [htodo, rawLines_cons hu] at this
        simpa using this
      obtain ⟨J, io, g1, g2, g3, g4, g5⟩ := getLine_line (env := x.env) hf hsz (by rw [hun]; exact hu)
      rw [hun, ← hl.1] at g1 g2 g4 g5
      have hl0 : l ≠ [] := by rw [hl.1]; exact upToLF_ne hu
      have htries : a.tries = 0 := by
        rcases Nat.eq_zero_or_pos a.tries with h | h
        · exact h
        · have := hr.done h; rw [htodo] at this; cases this
      have hgl : getLineNext x s1 = .ok (some l.length) (s1.setNext io) := by simp [getLineNext, g1]
      rw [M.bind_of_ok hgl]
      obtain ⟨T, hT⟩ : ∃ T, (s1.setNext io).next.conv.spl.mem = l ++ NUL :: T := ⟨_, g2⟩
      have hTT : T = ((s.next.conv.spl.mem.set 0 NUL).drop (l.length + 1) ++ J) := by
        have : l ++ NUL :: T = stored l s1.ioNext.mem J := hT.symm.trans g2
        have := List.append_cancel_left this
        have h' := (List.cons.inj this).2
        rw [h']; show List.drop _ s1.next.conv.spl.mem ++ J = _; rw [hmem]
      have hrm := removeEolNext_spec hl0 hT
      simp only [M.bind_of_ok hrm]
      generalize hs2 : ({ s1.setNext io with crlf := eolOf l == [CR, LF] }.setMem (chop l ++ NUL :: tailOf l T) : Reader) = s2
      -- the new state
      generalize ha2 : ({ a with ln := a.ln + 1, pos := a.off, off := a.off + l.length, crlf := eolOf l == [CR, LF],
                                 todo := ls, look := MRd.overlay l a.look } : MRd) = a2
      have hmem2 : s2.next.conv.spl.mem = chop l ++ NUL :: tailOf l T := by rw [← hs2]; rfl
      have hlen2 : s2.next.conv.spl.mem.length = (s1.setNext io).next.conv.spl.mem.length := by
        rw [hmem2, hT, ← removed_eq]
        split
        · rfl
        · rw [List.length_set]
      have hbase : ∀ lk, RBase x s2 { a2 with look := lk } := by
        intro lk
        refine { cur := ?_, next := ?_, selok := ?_, helper := ?_, todo := ?_, ln := ?_, done := ?_, curr := ?_, chars := ?_ }
        · rw [← hs2, ← hs1, ← ha2]; exact hr.cur
        · refine ⟨?_, ?_, ?_, ?_, ?_, ?_⟩
          · rw [← hs2, ← hs1, ← ha2]; exact hr.next.err
          · rw [← hs2, ← hs1, ← ha2]; exact hr.next.serr
          · rw [← hs2, ← hs1, ← ha2]; exact hr.next.sel
          · rw [← hs2, ← hs1, ← ha2]; exact hr.next.ncols
          · rw [hlen2, ← hs2]; exact g3
          · intro cs h; rw [← ha2] at h; exact absurd (hc.symm.trans h) (by simp)
        · rw [← ha2]; exact hr.selok
        · rw [← hs2, ← hs1]; exact hr.helper
        · rw [← ha2, ← hs2]
          show ls = rawLines (x.src.unread io.curr io.fpos)
          rw [g5, hl.2, ← hl.1]
        · rw [← hs2, ← hs1, ← ha2]; exact congrArg (· + 1) hr.ln
        · rw [← ha2]; intro h; exact absurd h (by show ¬ a.tries > 0; omega)
        · rw [← hs2, ← ha2]
          show io.curr = x.src.seek (a.off + l.length) a.tries
          rw [g4, htries, ← hs1]
          show s.curr + _ = _
          rw [hr.curr0 htries]; rfl
        · rw [← hs2, ← hs1, ← ha2]
          show s.curr = x.src.seek a.off (a.tries - 1)
          rw [hr.curr, htries]
      have hkeeps : ReadKeeps s s2 := by
        refine ⟨?_, ?_, ?_, ?_⟩ <;> rw [← hs2, ← hs1] <;> rfl
      have hnls : s2.nextLineSize = s.nextLineSize := by rw [← hs2, ← hs1]; rfl
      by_cases hb : x.cfg.ignoreEmpty = true ∧ chop l = []
      · have hb' : x.cfg.ignoreEmpty ∧ (chop l).length = 0 := ⟨hb.1, by rw [hb.2]; rfl⟩
        rw [if_pos hb']
        have hgo2 : MRd.readGo x.cfg.ignoreEmpty (l :: ls) a = MRd.readGo x.cfg.ignoreEmpty a2.todo a2 := by
          simp only [MRd.readGo]
          rw [if_pos hb, ← ha2]
        rw [hgo2]
        have hlook2 : RLook s a → RLook s2 a2 := by
          intro h
          have he : eolOf l = l := by have := chop_eol l; rw [hb.2] at this; simpa using this
          have hm2 : s2.next.conv.spl.mem = (l.set 0 NUL ++ [NUL]) ++ (s.next.conv.spl.mem.drop (l.length + 1) ++ J) := by
            rw [hmem2, hb.2, tailOf, he, if_neg hl0, hTT]
            obtain ⟨b, r, rfl⟩ := List.exists_cons_of_ne_nil hl0
            rw [List.drop_set_of_lt (by omega)]
            simp
          have hlt := h.lt
          have hlenA : (l.set 0 NUL ++ [NUL]).length = l.length + 1 := by simp
          have hll : a.look.length = s.nextLineSize := by rw [← h.look]; simp; omega
          have hlk : s2.next.conv.spl.mem.take s2.nextLineSize = MRd.overlay l a.look := by
            rw [hm2, hnls, MRd.overlay, hll, ← h.look]
            generalize (l.set 0 NUL ++ [NUL]) = A at hlenA
            rw [← hlenA]
            simp only [List.take_append, List.drop_take, List.length_drop]
            congr 1
            rw [List.take_take, Nat.min_self]
            have : s.nextLineSize - A.length - (s.next.conv.spl.mem.length - A.length) = 0 := by omega
            rw [this]; simp
          have hlt2 : s2.nextLineSize < s2.next.conv.spl.mem.length := by
            rw [hnls, hm2]; simp only [List.length_append, List.length_drop, List.length_set, List.length_singleton]; omega
          refine ⟨?_, hlt2, ?_, ?_⟩
          · rw [← ha2]; exact hlk
          · rw [← ha2]
            refine cutNul_take hlk hlt2 ⟨0, Nat.zero_le _, ?_⟩
            rw [hm2]
            obtain ⟨b, r, rfl⟩ := List.exists_cons_of_ne_nil hl0
            rfl
          · rw [← hs2, ← ha2]; rfl
        obtain ⟨s', k1, k2, k3, k4, k5, k6⟩ := ih s2 a2 (by rw [← ha2] at hbase ⊢; exact hbase _)
          (by rw [← ha2]; exact hc) (by rw [← ha2]; rw [htodo] at hlen; simp at hlen; omega)
        exact ⟨s', k1, k2, fun h => k3 (h.imp id hlook2), hkeeps.trans k4, fun h => (k5 h).trans hnls, k6⟩
      · have hb' : ¬ (x.cfg.ignoreEmpty = true ∧ (chop l).length = 0) := fun h => hb ⟨h.1, List.eq_nil_of_length_eq_zero h.2⟩
        rw [if_neg hb']
        have hgo2 : MRd.readGo x.cfg.ignoreEmpty (l :: ls) a = (true, { a2 with look := chop l }) := by
          simp only [MRd.readGo]
          rw [if_neg hb, ← ha2]
        rw [hgo2]
        refine ⟨{ s2 with nextLineSize := (chop l).length }, rfl, ?_, ?_, ?_, ?_, ?_⟩
        · have := hbase (chop l)
          exact ⟨this.cur, this.next, this.selok, this.helper, this.todo, this.ln, this.done, this.curr, this.chars⟩
        · intro _
          refine ⟨?_, ?_, ?_, ?_⟩
          · show s2.next.conv.spl.mem.take _ = _
            rw [hmem2]; simp
          · show _ < s2.next.conv.spl.mem.length
            rw [hmem2]; simp
          · show ∃ T, s2.next.conv.spl.mem = _
            rw [hmem2]; exact cutNul_append_nul _ _
          · rw [← hs2, ← ha2]; rfl
        · exact ⟨hkeeps.cur, hkeeps.helper, hkeeps.helperSize, hkeeps.conv⟩
        · intro h; cases h
        · intro _ hcr
          have hcr : s2.crlf = true := hcr
          rw [← hs2] at hcr
          have hcr : eolOf l = [CR, LF] := by simpa [setMem] using hcr
          show (chop l).length + 2 ≤ s2.next.conv.spl.mem.length
          rw [hmem2, tailOf, hcr]
          simp

end Ssp
