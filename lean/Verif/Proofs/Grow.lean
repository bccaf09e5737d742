import Verif.Proofs.LineMore
import Verif.Proofs.Relates
import Verif.Proofs.NoExc
import Verif.Spec.Parser
/-!
# Reading an input to which bytes are appended

`m` is an operation on a parser of an input, `m'` the same operation on the same parser of a longer input.  They do the same
unless the end of the shorter input is near: the part behind its last LF is reached.
-/
namespace Ssp

/-- what is followed through the operations: an invariant, how states follow each other, and two signs that the end was
reached: `T`, and `P`, a stronger one -/
structure World (σ : Type) where
  I : σ → Prop
  S : σ → σ → Prop
  T : σ → Prop
  P : σ → Prop
  refl : ∀ s, S s s
  trans : ∀ s t u, S s t → S t u → S s u
  stayT : ∀ s t, S s t → T s → T t
  stayP : ∀ s t, S s t → P s → P t
  weak : ∀ s, P s → T s

namespace World
variable {σ α β : Type} (w : World σ)

/-- `m'` does the same as `m`, unless there is the sign `D` (`E`, if an exception is thrown) -/
structure Ext (D E : σ → Prop) (m m' : M σ α) : Prop where
  ok : ∀ s, w.I s → ∀ a t, m s = .ok a t → w.I t ∧ w.S s t ∧ (m' s = .ok a t ∨ D t)
  exc : ∀ s, w.I s → ∀ e t, m s = .exc e t → w.I t ∧ w.S s t ∧ (m' s = .exc e t ∨ E t)

/-- from `D` to `D'`, or `E'` with an exception -/
structure Leads (D D' E' : σ → Prop) (m : M σ α) : Prop where
  ok : ∀ s, w.I s → D s → ∀ a t, m s = .ok a t → D' t
  exc : ∀ s, w.I s → D s → ∀ e t, m s = .exc e t → E' t

variable {w}

theorem Ext.bind {D E D' : σ → Prop} {m m' : M σ α} {f f' : α → M σ β} (h : w.Ext D E m m') (hf : ∀ a, w.Ext D' E (f a) (f' a))
    (hl : ∀ a, w.Leads D D' E (f a)) : w.Ext D' E (m >>= f) (m' >>= f') := by
  constructor
  · intro s hs b t hb
    rw [M.bind_apply] at hb
    cases hm : m s with
    | ok a s1 =>
      rw [hm] at hb
      obtain ⟨i1, s1', d1⟩ := h.ok s hs _ _ hm
      obtain ⟨i2, s2', d2⟩ := (hf a).ok s1 i1 _ _ hb
      refine ⟨i2, w.trans _ _ _ s1' s2', ?_⟩
      rcases d1 with d1 | d1
      · rw [M.bind_of_ok d1]; exact d2
      · exact .inr ((hl a).ok _ i1 d1 _ _ hb)
    | exc e s1 => rw [hm] at hb; cases hb
    | ub => rw [hm] at hb; cases hb
    | nofuel => rw [hm] at hb; cases hb
  · intro s hs b t hb
    rw [M.bind_apply] at hb
    cases hm : m s with
    | ok a s1 =>
      rw [hm] at hb
      obtain ⟨i1, s1', d1⟩ := h.ok s hs _ _ hm
      obtain ⟨i2, s2', d2⟩ := (hf a).exc s1 i1 _ _ hb
      refine ⟨i2, w.trans _ _ _ s1' s2', ?_⟩
      rcases d1 with d1 | d1
      · rw [M.bind_of_ok d1]; exact d2
      · exact .inr ((hl a).exc _ i1 d1 _ _ hb)
    | exc e s1 =>
      rw [hm] at hb
      cases hb
      obtain ⟨i1, s1', d1⟩ := h.exc s hs _ _ hm
      refine ⟨i1, s1', ?_⟩
      rcases d1 with d1 | d1
      · rw [M.bind_of_exc d1]; exact .inl rfl
      · exact .inr d1
    | ub => rw [hm] at hb; cases hb
    | nofuel => rw [hm] at hb; cases hb

/-- signs stay -/
theorem Ext.leadsT {D E : σ → Prop} {m m' : M σ α} (h : w.Ext D E m m') : w.Leads w.T w.T w.T m :=
  ⟨fun s hs d a t ht => w.stayT _ _ (h.ok s hs a t ht).2.1 d, fun s hs d e t ht => w.stayT _ _ (h.exc s hs e t ht).2.1 d⟩

theorem Ext.leadsP {D E : σ → Prop} {m m' : M σ α} (h : w.Ext D E m m') : w.Leads w.P w.P w.P m :=
  ⟨fun s hs d a t ht => w.stayP _ _ (h.ok s hs a t ht).2.1 d, fun s hs d e t ht => w.stayP _ _ (h.exc s hs e t ht).2.1 d⟩

theorem Ext.bindT {m m' : M σ α} {f f' : α → M σ β} (h : w.Ext w.T w.T m m') (hf : ∀ a, w.Ext w.T w.T (f a) (f' a)) :
    w.Ext w.T w.T (m >>= f) (m' >>= f') := Ext.bind h hf fun a => (hf a).leadsT

theorem Ext.bindP {m m' : M σ α} {f f' : α → M σ β} (h : w.Ext w.P w.P m m') (hf : ∀ a, w.Ext w.P w.P (f a) (f' a)) :
    w.Ext w.P w.P (m >>= f) (m' >>= f') := Ext.bind h hf fun a => (hf a).leadsP

theorem Ext.toT {m m' : M σ α} (h : w.Ext w.P w.P m m') : w.Ext w.T w.T m m' :=
  ⟨fun s hs a t ht => ⟨(h.ok s hs a t ht).1, (h.ok s hs a t ht).2.1, (h.ok s hs a t ht).2.2.imp_right (w.weak _)⟩,
    fun s hs a t ht => ⟨(h.exc s hs a t ht).1, (h.exc s hs a t ht).2.1, (h.exc s hs a t ht).2.2.imp_right (w.weak _)⟩⟩

theorem Ext.ite {D E : σ → Prop} {p : Prop} [Decidable p] {m m' n n' : M σ α} (h : w.Ext D E m m') (h' : w.Ext D E n n') :
    w.Ext D E (if p then m else n) (if p then m' else n') := by
  by_cases hp : p
  · simp only [hp, if_true]; exact h
  · simp only [hp, if_false]; exact h'

theorem Leads.ite {D D' E : σ → Prop} {p : Prop} [Decidable p] {m n : M σ α} (h : w.Leads D D' E m) (h' : w.Leads D D' E n) :
    w.Leads D D' E (if p then m else n) := by
  by_cases hp : p
  · simp only [hp, if_true]; exact h
  · simp only [hp, if_false]; exact h'

/-- an operation in which the input plays no part -/
theorem Ext.same {Q : Prop} {D E : σ → Prop} {m : M σ α} (h : Relates Q (fun s t => w.I s → w.I t ∧ w.S s t) m) : w.Ext D E m m :=
  ⟨fun s hs a t ht => ⟨(h.ok s a t ht hs).1, (h.ok s a t ht hs).2, .inl ht⟩,
    fun s hs a t ht => ⟨(h.exc s a t ht hs).1, (h.exc s a t ht hs).2, .inl ht⟩⟩

theorem Ext.pure {D E : σ → Prop} (a : α) : w.Ext D E (Pure.pure a : M σ α) (Pure.pure a) :=
  Ext.same (Q := True) (Relates.pure (fun s hs => ⟨hs, w.refl s⟩) a)
theorem Ext.get {D E : σ → Prop} : w.Ext D E (M.get : M σ σ) M.get := Ext.same (Q := True) (Relates.get (fun s hs => ⟨hs, w.refl s⟩))
theorem Ext.nofuel {D E : σ → Prop} {m' : M σ α} : w.Ext D E (M.nofuel : M σ α) m' :=
  ⟨fun _ _ _ _ h => (by cases h), fun _ _ _ _ h => (by cases h)⟩
theorem Ext.ub {D E : σ → Prop} {m' : M σ α} : w.Ext D E (M.ub : M σ α) m' :=
  ⟨fun _ _ _ _ h => (by cases h), fun _ _ _ _ h => (by cases h)⟩

end World

/-! ## Lines in what is left -/

theorem count_drop_upToLF {t : Bytes} (h : LF ∈ t) : t.count LF = (t.drop (Io.upToLF t).length).count LF + 1 := by
  induction t with
  | nil => simp at h
  | cons b t ih =>
    by_cases hb : b = LF
    · subst hb; simp [Io.upToLF]
    · have h' : LF ∈ t := by
        rcases List.mem_cons.mp h with h | h
        · exact absurd h.symm hb
        · exact h
      simp only [Io.upToLF, hb, if_false, List.length_cons, List.drop_succ_cons]
      rw [List.count_cons_of_ne hb]
      exact ih h'

theorem drop_upToLF_of_none {t : Bytes} (h : LF ∉ t) : t.drop (Io.upToLF t).length = [] := by
  induction t with
  | nil => rfl
  | cons b t ih =>
    have hb : b ≠ LF := fun e => h (by simp [e])
    simp only [Io.upToLF, hb, if_false, List.length_cons, List.drop_succ_cons]
    exact ih fun e => h (List.mem_cons_of_mem _ e)

/-! ## The reader -/
namespace Reader

/-- the sizes are those of the buffers -/
structure Sized (s : Reader) : Prop where
  cur : s.cur.size = s.cur.conv.spl.mem.length
  next : s.next.size = s.next.conv.spl.mem.length
  helper : s.helperSize = s.helper.length

/-- nothing was read, and the buffers have their sizes -/
structure Quiet (s t : Reader) : Prop where
  chars : t.charsRead = s.charsRead
  curr : t.curr = s.curr
  fpos : t.fpos = s.fpos
  ln : t.lineNumber = s.lineNumber
  sized : s.Sized → t.Sized

theorem Quiet.refl (s : Reader) : Quiet s s := ⟨rfl, rfl, rfl, rfl, id⟩
theorem Quiet.trans {a b c : Reader} (h : Quiet a b) (h' : Quiet b c) : Quiet a c :=
  ⟨h'.chars.trans h.chars, h'.curr.trans h.curr, h'.fpos.trans h.fpos, h'.ln.trans h.ln, fun i => h'.sized (h.sized i)⟩

/-- nothing was read, and the buffers are the same blocks -/
structure Still (s t : Reader) : Prop where
  chars : t.charsRead = s.charsRead
  curr : t.curr = s.curr
  fpos : t.fpos = s.fpos
  ln : t.lineNumber = s.lineNumber
  nls : t.nextLineSize = s.nextLineSize
  crlf : t.crlf = s.crlf
  cur : t.cur.conv.spl.mem.length = s.cur.conv.spl.mem.length ∧ t.cur.size = s.cur.size
  next : t.next.conv.spl.mem.length = s.next.conv.spl.mem.length ∧ t.next.size = s.next.size
  helper : t.helper.length = s.helper.length ∧ t.helperSize = s.helperSize

theorem Still.refl (s : Reader) : Still s s := ⟨rfl, rfl, rfl, rfl, rfl, rfl, ⟨rfl, rfl⟩, ⟨rfl, rfl⟩, ⟨rfl, rfl⟩⟩
theorem Still.trans {a b c : Reader} (h : Still a b) (h' : Still b c) : Still a c :=
  ⟨h'.chars.trans h.chars, h'.curr.trans h.curr, h'.fpos.trans h.fpos, h'.ln.trans h.ln, h'.nls.trans h.nls, h'.crlf.trans h.crlf,
    ⟨h'.cur.1.trans h.cur.1, h'.cur.2.trans h.cur.2⟩, ⟨h'.next.1.trans h.next.1, h'.next.2.trans h.next.2⟩,
    ⟨h'.helper.1.trans h.helper.1, h'.helper.2.trans h.helper.2⟩⟩
theorem Still.quiet {s t : Reader} (h : Still s t) : Quiet s t :=
  ⟨h.chars, h.curr, h.fpos, h.ln, fun i => ⟨by rw [h.cur.1, h.cur.2]; exact i.cur, by rw [h.next.1, h.next.2]; exact i.next,
    by rw [h.helper.1, h.helper.2]; exact i.helper⟩⟩

/-- what is left to read -/
abbrev left (x : Ctx) (s : Reader) : Bytes := x.src.unread s.curr s.fpos

/-- the number of complete lines -/
abbrev _root_.Ssp.Ctx.whole (x : Ctx) : Nat := x.src.data.count LF

/-- the world of a reader: the lines read are counted; `T`: no complete line is left; `P`: moreover, a line that is not
complete was tried -/
def world (x : Ctx) : World Reader where
  I s := s.Sized ∧ x.whole ≤ s.lineNumber + (left x s).count LF
  S s t := (LF ∉ left x s → LF ∉ left x t) ∧ s.lineNumber ≤ t.lineNumber
  T s := LF ∉ left x s
  P s := LF ∉ left x s ∧ x.whole < s.lineNumber
  refl _ := ⟨id, Nat.le_refl _⟩
  trans _ _ _ h h' := ⟨fun i => h'.1 (h.1 i), Nat.le_trans h.2 h'.2⟩
  stayT _ _ h i := h.1 i
  stayP _ _ h i := ⟨h.1 i.1, Nat.lt_of_lt_of_le i.2 h.2⟩
  weak _ h := h.1

theorem Quiet.step {x : Ctx} {s t : Reader} (h : Quiet s t) : (world x).I s → (world x).I t ∧ (world x).S s t := by
  intro hi
  have hl : left x t = left x s := by unfold left; rw [h.curr, h.fpos]
  refine ⟨⟨h.sized hi.1, ?_⟩, ?_, ?_⟩
  · rw [h.ln, hl]; exact hi.2
  · rw [hl]; exact id
  · rw [h.ln]; exact Nat.le_refl _

variable {Q : Prop}

theorem ext_quiet {α : Type} {x : Ctx} {D E : Reader → Prop} {m : M Reader α} (h : Relates Q Quiet m) : (world x).Ext D E m m :=
  World.Ext.same (Q := Q) ⟨fun s a t ht => (h.ok s a t ht).step, fun s a t ht => (h.exc s a t ht).step, h.thr⟩

theorem qb {α β : Type} {m : M Reader α} {f : α → M Reader β} (h : Relates Q Quiet m) (hf : ∀ a, Relates Q Quiet (f a)) :
    Relates Q Quiet (m >>= f) := Relates.bind (R := Quiet) (fun _ _ _ => Quiet.trans) h hf
theorem qp {α : Type} (a : α) : Relates Q Quiet (Pure.pure a : M Reader α) := Relates.pure Quiet.refl a
theorem qg : Relates Q Quiet (M.get : M Reader Reader) := Relates.get Quiet.refl
theorem qm {f : Reader → Reader} (h : ∀ s, Quiet s (f s)) : Relates Q Quiet (M.modify f) := Relates.modify h

theorem quiet_onNext {α : Type} {m : M Conv α} (h : Conv.Keeping Q m) : Relates Q Quiet (onNext m) := by
  constructor
  · intro s a s' hs
    unfold onNext at hs
    cases hm : m s.next.conv with
    | ok b cv => rw [hm] at hs; cases hs; exact ⟨rfl, rfl, rfl, rfl, fun i => ⟨i.cur, i.next.trans (h.ok _ _ _ hm).1.symm, i.helper⟩⟩
    | exc e cv => rw [hm] at hs; cases hs
    | ub => rw [hm] at hs; cases hs
    | nofuel => rw [hm] at hs; cases hs
  · intro s a s' hs
    unfold onNext at hs
    cases hm : m s.next.conv with
    | ok b cv => rw [hm] at hs; cases hs
    | exc e cv => rw [hm] at hs; cases hs; exact ⟨rfl, rfl, rfl, rfl, fun i => ⟨i.cur, i.next.trans (h.exc _ _ _ hm).1.symm, i.helper⟩⟩
    | ub => rw [hm] at hs; cases hs
    | nofuel => rw [hm] at hs; cases hs
  · intro s a s' hs
    unfold onNext at hs
    cases hm : m s.next.conv with
    | ok b cv => rw [hm] at hs; cases hs
    | exc e cv => exact h.thr _ _ _ hm
    | ub => rw [hm] at hs; cases hs
    | nofuel => rw [hm] at hs; cases hs

theorem quiet_wrNext (p : Nat) (b : Byte) : Relates Q Quiet (wrNext p b) := by
  refine Relates.quiet ?_ ?_ <;> intro s a s' h <;> unfold wrNext at h <;> by_cases hp : p < s.next.conv.spl.mem.length
  · rw [if_pos hp] at h
    cases h
    exact ⟨rfl, rfl, rfl, rfl, fun i => ⟨i.cur, by simpa using i.next, i.helper⟩⟩
  · rw [if_neg hp] at h; cases h
  · rw [if_pos hp] at h; cases h
  · rw [if_neg hp] at h; cases h

theorem quiet_rdNext (p : Nat) : Relates Q Quiet (rdNext p) := by
  constructor <;> intro s a s' h <;> unfold rdNext at h <;> cases hp : s.next.conv.spl.mem[p]? <;> rw [hp] at h <;> cases h
  exact Quiet.refl _

theorem quiet_removeEolNext (k : Nat) : Relates Q Quiet (removeEolNext k) := by
  unfold removeEolNext
  refine qb qg fun s => ?_
  cases eolSize s.next.conv.spl.mem k with
  | none => exact Relates.ub
  | some p =>
    obtain ⟨size, crlf⟩ := p
    exact qb (qm fun _ => ⟨rfl, rfl, rfl, rfl, fun i => ⟨i.cur, i.next, i.helper⟩⟩) fun _ =>
      Relates.ite (qp _) (qb (quiet_wrNext _ _) fun _ => qp _)

theorem quiet_removeEolHelper (k : Nat) : Relates Q Quiet (removeEolHelper k) := by
  unfold removeEolHelper
  refine qb qg fun s => ?_
  cases eolSize s.helper k with
  | none => exact Relates.ub
  | some p =>
    obtain ⟨size, crlf⟩ := p
    refine Relates.ite (qb (qm fun _ => ⟨rfl, rfl, rfl, rfl, fun i => ⟨i.cur, i.next, i.helper⟩⟩) fun _ => qp _) (Relates.ite ?_ Relates.ub)
    exact qb (qm fun _ => ⟨rfl, rfl, rfl, rfl, fun i => ⟨i.cur, i.next, by simpa using i.helper⟩⟩) fun _ => qp _

theorem quiet_undoRemoveEol : Relates Q Quiet undoRemoveEol := by
  unfold undoRemoveEol
  refine qb qg fun s => Relates.ite (qb (quiet_wrNext _ _) fun _ => qb (quiet_wrNext _ _) fun _ => qm fun _ => ?_)
    (Relates.ite (qb (quiet_wrNext _ _) fun _ => qm fun _ => ?_) (qp _))
  · exact ⟨rfl, rfl, rfl, rfl, fun i => ⟨i.cur, i.next, i.helper⟩⟩
  · exact ⟨rfl, rfl, rfl, rfl, fun i => ⟨i.cur, i.next, i.helper⟩⟩

theorem quiet_multilineLimitReached (x : Ctx) (k : Nat) : Relates (x.cfg.mode = .throw) Quiet (multilineLimitReached x k) :=
  Relates.ite (qb (quiet_onNext (Conv.keep_handleErrorMultilineLimit _)) fun _ => qp _) (qp _)

theorem quiet_countEscapes (c : Cfg) : ∀ p, Relates Q Quiet (countEscapes c p)
  | 0 => qp _
  | p + 1 => qb (quiet_rdNext p) fun _ => Relates.ite (qb (quiet_countEscapes c p) fun _ => qp _) (qp _)

theorem quiet_escapedEol (x : Ctx) (k : Nat) : Relates Q Quiet (escapedEol x k) := qb (quiet_countEscapes _ k) fun _ => qp _

theorem quiet_reallocConcat (x : Ctx) (k : Nat) : Relates Q Quiet (reallocConcat x k) := by
  refine Relates.quiet ?_ ?_ <;> intro s a s' h <;> unfold reallocConcat at h <;> dsimp only at h <;> by_cases hp : k + 1 ≤ s.helper.length
  · rw [if_pos hp] at h
    cases h
    refine ⟨rfl, rfl, rfl, rfl, fun i => ⟨i.cur, ?_, i.helper⟩⟩
    simp only [List.length_append, List.length_take, List.length_drop, List.length_map, List.length_range]
    omega
  · rw [if_neg hp] at h; cases h
  · rw [if_pos hp] at h; cases h
  · rw [if_neg hp] at h; cases h

/-! ### Reading -/
section
variable {x : Ctx} {src' : Src}

/-- reading into the next line buffer when a complete line is left -/
theorem getLineNext_whole (hg : x.src.Grown src') (hf : x.src.Fine) {s : Reader} (hs : s.Sized) (hl : LF ∈ left x s) :
    ∃ k t, getLineNext x s = .ok (some k) t ∧ getLineNext { x with src := src' } s = .ok (some k) t ∧ t.Sized ∧
      t.lineNumber = s.lineNumber ∧ (left x s).count LF = (left x t).count LF + 1 := by
  have hio : (s.ioNext).Sized := hs.next
  have hne : x.src.unread s.ioNext.curr s.ioNext.fpos ≠ [] := List.ne_nil_of_mem hl
  obtain ⟨J, io, h1, h2, h3, h4, h5⟩ := getLine_line (env := x.env) hf hio hne
  have h1' := getLine_grow hg hf hio hl h1
  generalize hk : (Io.upToLF (x.src.unread s.ioNext.curr s.ioNext.fpos)).length = k at *
  refine ⟨k, s.setNext io, ?_, ?_, ⟨hs.cur, h3, hs.helper⟩, rfl, ?_⟩
  · unfold getLineNext; rw [h1]
  · unfold getLineNext; dsimp only; rw [h1']
  · show _ = (x.src.unread io.curr io.fpos).count LF + 1
    rw [h5, ← hk]
    exact count_drop_upToLF hl

theorem getLineNext_tail (hf : x.src.Fine) {s t : Reader} {r : Option Nat} (hs : s.Sized) (hl : LF ∉ left x s) (h : getLineNext x s = .ok r t) :
    t.Sized ∧ t.lineNumber = s.lineNumber ∧ left x t = [] := by
  have hio : (s.ioNext).Sized := hs.next
  by_cases hne : x.src.unread s.ioNext.curr s.ioNext.fpos = []
  · obtain ⟨J, io, h1, h2, h3, h4, h5⟩ := getLine_eof (env := x.env) hf hio hne
    unfold getLineNext at h
    rw [h1] at h
    cases h
    exact ⟨⟨hs.cur, h3, hs.helper⟩, rfl, h5⟩
  · obtain ⟨J, io, h1, h2, h3, h4, h5⟩ := getLine_line (env := x.env) hf hio hne
    unfold getLineNext at h
    rw [h1] at h
    cases h
    exact ⟨⟨hs.cur, h3, hs.helper⟩, rfl, h5.trans (drop_upToLF_of_none hl)⟩

theorem getLineHelper_whole (hg : x.src.Grown src') (hf : x.src.Fine) {s : Reader} (hs : s.Sized) (hl : LF ∈ left x s) :
    ∃ k t, getLineHelper x s = .ok (some k) t ∧ getLineHelper { x with src := src' } s = .ok (some k) t ∧ t.Sized ∧
      t.lineNumber = s.lineNumber ∧ (left x s).count LF = (left x t).count LF + 1 := by
  have hio : (s.ioHelper).Sized := hs.helper
  have hne : x.src.unread s.ioHelper.curr s.ioHelper.fpos ≠ [] := List.ne_nil_of_mem hl
  obtain ⟨J, io, h1, h2, h3, h4, h5⟩ := getLine_line (env := x.env) hf hio hne
  have h1' := getLine_grow hg hf hio hl h1
  generalize hk : (Io.upToLF (x.src.unread s.ioHelper.curr s.ioHelper.fpos)).length = k at *
  refine ⟨k, s.setHelper io, ?_, ?_, ⟨hs.cur, hs.next, h3⟩, rfl, ?_⟩
  · unfold getLineHelper; rw [h1]
  · unfold getLineHelper; dsimp only; rw [h1']
  · show _ = (x.src.unread io.curr io.fpos).count LF + 1
    rw [h5, ← hk]
    exact count_drop_upToLF hl

theorem getLineHelper_tail (hf : x.src.Fine) {s t : Reader} {r : Option Nat} (hs : s.Sized) (hl : LF ∉ left x s) (h : getLineHelper x s = .ok r t) :
    t.Sized ∧ t.lineNumber = s.lineNumber ∧ left x t = [] := by
  have hio : (s.ioHelper).Sized := hs.helper
  by_cases hne : x.src.unread s.ioHelper.curr s.ioHelper.fpos = []
  · obtain ⟨J, io, h1, h2, h3, h4, h5⟩ := getLine_eof (env := x.env) hf hio hne
    unfold getLineHelper at h
    rw [h1] at h
    cases h
    exact ⟨⟨hs.cur, hs.next, h3⟩, rfl, h5⟩
  · obtain ⟨J, io, h1, h2, h3, h4, h5⟩ := getLine_line (env := x.env) hf hio hne
    unfold getLineHelper at h
    rw [h1] at h
    cases h
    exact ⟨⟨hs.cur, hs.next, h3⟩, rfl, h5.trans (drop_upToLF_of_none hl)⟩


/-- a round of the loop of `read_next` up to the call of `get_line` -/
theorem loop_start {s : Reader} (hs : s.Sized) : ∃ s1 : Reader, s1.Sized ∧ s1.curr = s.curr ∧ s1.fpos = s.fpos ∧
    s1.lineNumber = s.lineNumber + 1 ∧ (s1.cur = s.cur ∧ s1.next.size = s.next.size ∧ s1.helper = s.helper) ∧
    ∀ (y : Ctx) (f : Nat), readNextLoop y (f + 1) s = (getLineNext y >>= fun r => match r with
      | none => pure false
      | some ssize => removeEolNext ssize >>= fun size =>
        if y.cfg.ignoreEmpty = true ∧ size = 0 then readNextLoop y f
        else M.modify (fun s => { s with nextLineSize := size }) >>= fun _ => pure true) s1 := by
  by_cases hz : s.next.size > 0
  · have hw : wrNext 0 NUL { s with lineNumber := s.lineNumber + 1 } = .ok () { s with
        lineNumber := s.lineNumber + 1
        next := { s.next with conv := { s.next.conv with spl := { s.next.conv.spl with mem := s.next.conv.spl.mem.set 0 NUL } } } } := by
      unfold wrNext
      rw [if_pos (by rw [← hs.next]; exact hz)]
    refine ⟨{ s with
      lineNumber := s.lineNumber + 1
      charsRead := s.curr
      next := { s.next with conv := { s.next.conv with spl := { s.next.conv.spl with mem := s.next.conv.spl.mem.set 0 NUL } } } },
      ⟨hs.cur, by simpa using hs.next, hs.helper⟩, rfl, rfl, rfl, ⟨rfl, rfl, rfl⟩, fun y f => ?_⟩
    conv => lhs; unfold readNextLoop
    simp only [M.modify_bind, M.get_bind, hz, if_true]
    rw [M.bind_of_ok hw]
    rfl
  · refine ⟨{ s with lineNumber := s.lineNumber + 1, charsRead := s.curr }, ⟨hs.cur, hs.next, hs.helper⟩, rfl, rfl, rfl, ⟨rfl, rfl, rfl⟩, fun y f => ?_⟩
    conv => lhs; unfold readNextLoop
    simp only [M.modify_bind, M.get_bind, hz, if_false]
    rfl

theorem readNextLoop_grow (hg : x.src.Grown src') (hf : x.src.Fine) : ∀ (f f' : Nat), f ≤ f' → ∀ (s t : Reader) (b : Bool),
    (world x).I s → readNextLoop x f s = .ok b t →
    (world x).I t ∧ (world x).S s t ∧ s.lineNumber < t.lineNumber ∧
      (LF ∈ left x s → readNextLoop { x with src := src' } f' s = .ok b t ∨ (world x).P t) ∧ (b = false → (world x).P t) := by
  intro f
  induction f with
  | zero => intro f' _ s t b _ h; cases h
  | succ f ih =>
    intro f' hff s t b hi h
    obtain ⟨f', rfl⟩ : ∃ g, f' = g + 1 := ⟨f' - 1, by omega⟩
    obtain ⟨s1, k1, k2, k3, k4, _, k5⟩ := loop_start hi.1
    have hleft : left x s1 = left x s := by unfold left; rw [k2, k3]
    rw [k5] at h
    obtain ⟨r, s2, h1, h2⟩ := bind_ok_inv h
    by_cases hl : LF ∈ left x s
    · obtain ⟨k, s3, g1, g2, g3, g4, g5⟩ := getLineNext_whole hg hf k1 (by rw [hleft]; exact hl)
      rw [g1] at h1
      cases h1
      dsimp only at h2
      obtain ⟨size, s4, h3, h4⟩ := bind_ok_inv h2
      have hq := (quiet_removeEolNext (Q := True) k).ok _ _ _ h3
      have hl4 : left x s4 = left x s2 := by unfold left; rw [hq.curr, hq.fpos]
      have hi4 : (world x).I s4 := by
        refine ⟨hq.sized g3, ?_⟩
        have := hi.2
        rw [hl4, hq.ln, g4, k4]
        rw [hleft] at g5
        omega
      have hln : s4.lineNumber = s.lineNumber + 1 := by rw [hq.ln, g4, k4]
      have hS4 : (world x).S s s4 := ⟨fun h => absurd hl h, by omega⟩
      by_cases he : x.cfg.ignoreEmpty = true ∧ size = 0
      · rw [if_pos he] at h4
        obtain ⟨i1, i2, i3, i4, i5⟩ := ih f' (by omega) s4 t b hi4 h4
        refine ⟨i1, (world x).trans _ _ _ hS4 i2, by omega, fun _ => ?_, i5⟩
        by_cases hl' : LF ∈ left x s4
        · rcases i4 hl' with i4 | i4
          · refine .inl ?_
            rw [k5, M.bind_of_ok g2]
            dsimp only
            rw [M.bind_of_ok h3, if_pos he]
            exact i4
          · exact .inr i4
        · refine .inr ⟨i2.1 hl', ?_⟩
          have := hi4.2
          rw [List.count_eq_zero_of_not_mem hl'] at this
          omega
      · rw [if_neg he] at h4
        cases h4
        refine ⟨⟨⟨hi4.1.cur, hi4.1.next, hi4.1.helper⟩, hi4.2⟩, hS4, by show _ < s4.lineNumber; omega, fun _ => .inl ?_, fun h => by cases h⟩
        rw [k5, M.bind_of_ok g2]
        dsimp only
        rw [M.bind_of_ok h3, if_neg he]
        rfl
    · obtain ⟨g1, g2, g3⟩ := getLineNext_tail hf k1 (by rw [hleft]; exact hl) h1
      have hw : x.whole ≤ s.lineNumber := by
        have := hi.2
        rw [List.count_eq_zero_of_not_mem hl] at this
        omega
      have hi2 : (world x).I s2 := ⟨g1, by omega⟩
      have hS2 : (world x).S s s2 := ⟨fun _ => by rw [g3]; simp, by omega⟩
      cases r with
      | none =>
        cases h2
        exact ⟨hi2, hS2, by omega, fun h => absurd h hl, fun _ => ⟨hS2.1 hl, by omega⟩⟩
      | some k =>
        dsimp only at h2
        obtain ⟨size, s4, h3, h4⟩ := bind_ok_inv h2
        have hq := (quiet_removeEolNext (Q := True) k).ok _ _ _ h3
        obtain ⟨hi4, hS4⟩ := hq.step hi2
        have hln : s4.lineNumber = s.lineNumber + 1 := by rw [hq.ln, g2, k4]
        by_cases he : x.cfg.ignoreEmpty = true ∧ size = 0
        · rw [if_pos he] at h4
          obtain ⟨i1, i2, i3, i4, i5⟩ := ih f' (by omega) s4 t b hi4 h4
          exact ⟨i1, (world x).trans _ _ _ ((world x).trans _ _ _ hS2 hS4) i2, by omega, fun h => absurd h hl, i5⟩
        · rw [if_neg he] at h4
          cases h4
          exact ⟨⟨⟨hi4.1.cur, hi4.1.next, hi4.1.helper⟩, hi4.2⟩, (world x).trans _ _ _ hS2 hS4, by show _ < s4.lineNumber; omega,
            fun h => absurd h hl, fun h => by cases h⟩

theorem bound_grow (hg : x.src.Grown src') : bound x ≤ bound { x with src := src' } := by
  obtain ⟨c, env, src, d, fn, w⟩ := x
  dsimp only at hg ⊢
  cases hg <;> simp [bound]

theorem ext_loop (hg : x.src.Grown src') (hf : x.src.Fine) :
    (world x).Ext (world x).P (world x).P (readNextLoop x (bound x)) (readNextLoop { x with src := src' } (bound { x with src := src' })) := by
  constructor
  · intro s hs b t h
    obtain ⟨h1, h2, h3, h4, h5⟩ := readNextLoop_grow hg hf _ _ (bound_grow hg) s t b hs h
    refine ⟨h1, h2, ?_⟩
    by_cases hl : LF ∈ left x s
    · exact h4 hl
    · have := hs.2
      rw [List.count_eq_zero_of_not_mem hl] at this
      exact .inr ⟨h2.1 hl, by omega⟩
  · intro s hs e t h
    exact absurd h ((noexc_readNextLoop x _).no s e t)

/-- at the end, `read_next` counts a line that is not complete -/
theorem leads_loop (hg : x.src.Grown src') (hf : x.src.Fine) (E : Reader → Prop) :
    (world x).Leads (world x).T (world x).P E (readNextLoop x (bound x)) := by
  constructor
  · intro s hs hT b t h
    obtain ⟨h1, h2, h3, h4, h5⟩ := readNextLoop_grow hg hf _ _ (bound_grow hg) s t b hs h
    have := hs.2
    rw [List.count_eq_zero_of_not_mem (show LF ∉ left x s from hT)] at this
    exact ⟨h2.1 hT, by omega⟩
  · intro s hs _ e t h
    exact absurd h ((noexc_readNextLoop x _).no s e t)

theorem ext_readNext (hg : x.src.Grown src') (hf : x.src.Fine) :
    (world x).Ext (world x).P (world x).P (readNext x) (readNext { x with src := src' }) :=
  World.Ext.bindP (ext_quiet (quiet_onNext (Conv.keep_clearError _))) fun _ => ext_loop hg hf

theorem leads_readNext (hg : x.src.Grown src') (hf : x.src.Fine) (E : Reader → Prop) :
    (world x).Leads (world x).T (world x).P E (readNext x) := by
  have hq := quiet_onNext (Conv.keep_clearError x.cfg)
  constructor
  · intro s hs hT b t h
    obtain ⟨u, s1, h1, h2⟩ := bind_ok_inv h
    obtain ⟨i1, i2⟩ := (hq.ok _ _ _ h1).step (x := x) hs
    exact (leads_loop hg hf E).ok s1 i1 (i2.1 hT) b t h2
  · intro s hs _ e t h
    exact absurd h ((noexc_readNext x).no s e t)

theorem readNext_false (hg : x.src.Grown src') (hf : x.src.Fine) {s t : Reader} (hs : (world x).I s)
    (h : readNext x s = .ok false t) : (world x).P t := by
  have hq := quiet_onNext (Conv.keep_clearError x.cfg)
  obtain ⟨u, s1, h1, h2⟩ := bind_ok_inv h
  obtain ⟨i1, i2⟩ := (hq.ok _ _ _ h1).step (x := x) hs
  obtain ⟨h1, h2, h3, h4, h5⟩ := readNextLoop_grow hg hf _ _ (bound_grow hg) s1 t false i1 h2
  exact h5 rfl

theorem noexc_getLineHelper (x : Ctx) : NoExc (getLineHelper x) := by
  refine ⟨fun s e s' h => ?_⟩
  unfold getLineHelper at h
  cases hm : Io.getLine x.env x.src s.ioHelper with
  | ok a io => rw [hm] at h; cases h
  | exc e' io => exact (Io.noexc_getLine _ _).no _ _ _ hm
  | ub => rw [hm] at h; cases h
  | nofuel => rw [hm] at h; cases h

theorem noexc_removeEolHelper (k : Nat) : NoExc (removeEolHelper k) := by
  refine ⟨fun s e s' h => ?_⟩
  unfold removeEolHelper at h
  simp only [M.get_bind] at h
  cases hz : eolSize s.helper k with
  | none => rw [hz] at h; cases h
  | some p =>
    rw [hz] at h
    dsimp only at h
    by_cases h1 : p.1 = k
    · rw [if_pos h1] at h; cases h
    · rw [if_neg h1] at h
      by_cases h2 : p.1 < s.helper.length
      · rw [if_pos h2] at h; cases h
      · rw [if_neg h2] at h; cases h

theorem noexc_reallocConcat (x : Ctx) (k : Nat) : NoExc (reallocConcat x k) := by
  refine ⟨fun s e s' h => ?_⟩
  unfold reallocConcat at h
  dsimp only at h
  by_cases hp : k + 1 ≤ s.helper.length
  · rw [if_pos hp] at h; cases h
  · rw [if_neg hp] at h; cases h

theorem noexc_afterHelper (x : Ctx) (r : Option Nat) : NoExc (match r with
    | none => (pure false : M Reader Bool)
    | some ssize => do
      M.modify fun s => { s with lineNumber := s.lineNumber + 1 }
      let size ← removeEolHelper ssize
      reallocConcat x size
      pure true) := by
  cases r with
  | none => exact NoExc.pure _
  | some k =>
    exact NoExc.bind (NoExc.modify _) fun _ => NoExc.bind (noexc_removeEolHelper k) fun _ => NoExc.bind (noexc_reallocConcat x _) fun _ => NoExc.pure _

/-- `append_next_line_to_buffer` -/
theorem ext_append (hg : x.src.Grown src') (hf : x.src.Fine) :
    (world x).Ext (world x).T (world x).T (appendNextLine x) (appendNextLine { x with src := src' }) := by
  unfold appendNextLine
  refine World.Ext.bindT (ext_quiet (Q := True) quiet_undoRemoveEol) fun _ => World.Ext.bindT
    (World.Ext.same (Q := True) ⟨fun s a t ht => (by
        cases ht; exact fun i => ⟨⟨⟨i.1.cur, i.1.next, i.1.helper⟩, i.2⟩, id, Nat.le_refl _⟩), fun s a t ht => (by cases ht),
        fun _ _ _ _ => trivial⟩)
    fun _ => ?_
  have hcont : ∀ size, Relates True Quiet (removeEolHelper size >>= fun size => reallocConcat x size >>= fun _ => pure true) :=
    fun size => qb (quiet_removeEolHelper _) fun _ => qb (quiet_reallocConcat _ _) fun _ => qp _
  constructor
  · intro s hs b t h
    obtain ⟨r, s1, h1, h2⟩ := bind_ok_inv h
    by_cases hl : LF ∈ left x s
    · obtain ⟨k, s2, g1, g2, g3, g4, g5⟩ := getLineHelper_whole hg hf hs.1 hl
      rw [g1] at h1
      cases h1
      dsimp only at h2
      simp only [M.modify_bind] at h2
      have hq := (hcont k).ok _ _ _ h2
      have hi : (world x).I { s1 with lineNumber := s1.lineNumber + 1 } := by
        refine ⟨⟨g3.cur, g3.next, g3.helper⟩, ?_⟩
        have := hs.2
        show x.whole ≤ s1.lineNumber + 1 + (left x s1).count LF
        omega
      obtain ⟨i1, i2⟩ := hq.step hi
      refine ⟨i1, ⟨fun h => absurd hl h, ?_⟩, .inl ?_⟩
      · have : s1.lineNumber + 1 ≤ t.lineNumber := i2.2
        omega
      · rw [M.bind_of_ok g2]
        dsimp only
        simp only [M.modify_bind]
        exact h2
    · obtain ⟨g1, g2, g3⟩ := getLineHelper_tail hf hs.1 hl h1
      have hw : x.whole ≤ s.lineNumber := by
        have := hs.2
        rw [List.count_eq_zero_of_not_mem hl] at this
        omega
      cases r with
      | none =>
        cases h2
        refine ⟨⟨g1, by omega⟩, ⟨fun _ => by rw [g3]; simp, by omega⟩, .inr ?_⟩
        show LF ∉ left x t
        rw [g3]; simp
      | some k =>
        dsimp only at h2
        simp only [M.modify_bind] at h2
        have hq := (hcont k).ok _ _ _ h2
        have hi : (world x).I { s1 with lineNumber := s1.lineNumber + 1 } :=
          ⟨⟨g1.cur, g1.next, g1.helper⟩, by show x.whole ≤ s1.lineNumber + 1 + _; omega⟩
        obtain ⟨i1, i2⟩ := hq.step hi
        have hT : LF ∉ left x t := i2.1 (show LF ∉ left x s1 by rw [g3]; simp)
        refine ⟨i1, ⟨fun _ => hT, ?_⟩, .inr hT⟩
        have : s1.lineNumber + 1 ≤ t.lineNumber := i2.2
        omega
  · intro s hs e t h
    exact absurd h ((NoExc.bind (noexc_getLineHelper x) fun r => noexc_afterHelper x r).no _ _ _)

theorem ext_escapeLoop (hg : x.src.Grown src') (hf : x.src.Fine) : ∀ (f f' : Nat) (k : Nat), f ≤ f' →
    (world x).Ext (world x).T (world x).T (escapeLoop x f k) (escapeLoop { x with src := src' } f' k) := by
  intro f
  induction f with
  | zero => intro f' k _; exact World.Ext.nofuel
  | succ f ih =>
    intro f' k hff
    obtain ⟨f', rfl⟩ : ∃ g, f' = g + 1 := ⟨f' - 1, by omega⟩
    unfold escapeLoop
    refine World.Ext.bindT World.Ext.get fun s => World.Ext.bindT (ext_quiet (Q := True) (quiet_escapedEol x _)) fun b => World.Ext.ite ?_ (World.Ext.pure _)
    refine World.Ext.bindT (ext_quiet (quiet_multilineLimitReached x _)) fun b => World.Ext.ite (World.Ext.pure _) ?_
    refine World.Ext.bindT (ext_append hg hf) fun b => World.Ext.ite (ih f' _ (by omega)) ?_
    exact World.Ext.bindT (ext_quiet (quiet_onNext (Conv.keep_handleErrorUnterminatedEscape _))) fun _ => World.Ext.pure _

theorem ext_escapeLoopIf (hg : x.src.Grown src') (hf : x.src.Fine) (k : Nat) :
    (world x).Ext (world x).T (world x).T (escapeLoopIf x k) (escapeLoopIf { x with src := src' } k) :=
  World.Ext.ite (ext_escapeLoop hg hf _ _ _ (bound_grow hg)) (World.Ext.pure _)

theorem ext_quoteLoop (hg : x.src.Grown src') (hf : x.src.Fine) : ∀ (f f' : Nat) (k : Nat), f ≤ f' →
    (world x).Ext (world x).T (world x).T (quoteLoop x f k) (quoteLoop { x with src := src' } f' k) := by
  intro f
  induction f with
  | zero => intro f' k _; exact World.Ext.nofuel
  | succ f ih =>
    intro f' k hff
    obtain ⟨f', rfl⟩ : ∃ g, f' = g + 1 := ⟨f' - 1, by omega⟩
    unfold quoteLoop
    refine World.Ext.bindT World.Ext.get fun s => World.Ext.ite (World.Ext.ite World.Ext.ub ?_) (World.Ext.pure _)
    refine World.Ext.bindT (ext_quiet (Q := True) (qm fun _ => ⟨rfl, rfl, rfl, rfl, fun i => ⟨i.cur, i.next, i.helper⟩⟩)) fun _ => ?_
    refine World.Ext.bindT (ext_quiet (quiet_multilineLimitReached x _)) fun b => World.Ext.ite (World.Ext.pure _) ?_
    refine World.Ext.bindT (ext_append hg hf) fun b => World.Ext.ite ?_ (ext_quiet (quiet_onNext (Conv.keep_handleErrorUnterminatedQuote _)))
    refine World.Ext.bindT (ext_escapeLoopIf hg hf _) fun r => ?_
    cases r with
    | none => exact World.Ext.pure _
    | some l =>
      refine World.Ext.bindT World.Ext.get fun s => World.Ext.bindT (ext_quiet (quiet_onNext (Conv.keep_onSpl (Spl.keep_resplit _ _ _)))) fun _ => ?_
      exact ih f' _ (by omega)

theorem ext_parse (hg : x.src.Grown src') (hf : x.src.Fine) :
    (world x).Ext (world x).T (world x).T (parse x) (parse { x with src := src' }) := by
  unfold parse
  refine World.Ext.bindT (ext_escapeLoopIf hg hf _) fun r => ?_
  cases r with
  | none => exact World.Ext.pure _
  | some l =>
    refine World.Ext.bindT (ext_quiet (quiet_onNext (Conv.keep_split _ _))) fun _ => World.Ext.ite ?_ (World.Ext.pure _)
    exact ext_quoteLoop hg hf _ _ _ (bound_grow hg)

theorem noexc_append (x : Ctx) : NoExc (appendNextLine x) := by
  unfold appendNextLine
  exact NoExc.bind (quiet_undoRemoveEol.noexc (Q := False) id) fun _ => NoExc.bind (NoExc.modify _) fun _ =>
    NoExc.bind (noexc_getLineHelper x) fun r => noexc_afterHelper x r

/-- without `throw_on_error`, `parse` throws nothing -/
theorem noexc_escapeLoop (x : Ctx) (hm : ¬ x.cfg.mode = .throw) : ∀ (f k : Nat), NoExc (escapeLoop x f k)
  | 0, _ => NoExc.nofuel
  | f + 1, k => by
    unfold escapeLoop
    refine NoExc.bind NoExc.get fun s => NoExc.bind ((quiet_escapedEol x _).noexc hm) fun b => NoExc.ite ?_ (NoExc.pure _)
    refine NoExc.bind ((quiet_multilineLimitReached x _).noexc hm) fun b => NoExc.ite (NoExc.pure _) ?_
    refine NoExc.bind (noexc_append x) fun b => NoExc.ite (noexc_escapeLoop x hm f _) ?_
    exact NoExc.bind ((quiet_onNext (Conv.keep_handleErrorUnterminatedEscape _)).noexc hm) fun _ => NoExc.pure _

theorem noexc_escapeLoopIf (x : Ctx) (hm : ¬ x.cfg.mode = .throw) (k : Nat) : NoExc (escapeLoopIf x k) :=
  NoExc.ite (noexc_escapeLoop x hm _ _) (NoExc.pure _)

theorem noexc_quoteLoop (x : Ctx) (hm : ¬ x.cfg.mode = .throw) : ∀ (f k : Nat), NoExc (quoteLoop x f k)
  | 0, _ => NoExc.nofuel
  | f + 1, k => by
    unfold quoteLoop
    refine NoExc.bind NoExc.get fun s => NoExc.ite (NoExc.ite NoExc.ub ?_) (NoExc.pure _)
    refine NoExc.bind (NoExc.modify _) fun _ => NoExc.bind ((quiet_multilineLimitReached x _).noexc hm) fun b => NoExc.ite (NoExc.pure _) ?_
    refine NoExc.bind (noexc_append x) fun b => NoExc.ite ?_ ((quiet_onNext (Conv.keep_handleErrorUnterminatedQuote _)).noexc hm)
    refine NoExc.bind (noexc_escapeLoopIf x hm _) fun r => ?_
    cases r with
    | none => exact NoExc.pure _
    | some l =>
      exact NoExc.bind NoExc.get fun s => NoExc.bind ((quiet_onNext (Conv.keep_onSpl (Spl.keep_resplit _ _ _))).noexc hm) fun _ =>
        noexc_quoteLoop x hm f _

theorem noexc_parse (x : Ctx) (hm : ¬ x.cfg.mode = .throw) : NoExc (parse x) := by
  unfold parse
  refine NoExc.bind (noexc_escapeLoopIf x hm _) fun r => ?_
  cases r with
  | none => exact NoExc.pure _
  | some l =>
    exact NoExc.bind ((quiet_onNext (Conv.keep_split _ _)).noexc hm) fun _ => NoExc.ite (noexc_quoteLoop x hm _ _) (NoExc.pure _)

theorem quiet_update : Relates Q Quiet update := qm fun _ => ⟨rfl, rfl, rfl, rfl, fun i => ⟨i.next, i.cur, i.helper⟩⟩

theorem still_getBuffer : Relates Q Still getBuffer := by
  refine Relates.quiet ?_ ?_ <;> intro s a s' h <;> unfold getBuffer at h <;> by_cases hp : s.nextLineSize ≤ s.next.conv.spl.mem.length
  · rw [if_pos hp] at h; cases h; exact Still.refl _
  · rw [if_neg hp] at h; cases h
  · rw [if_pos hp] at h; cases h
  · rw [if_neg hp] at h; cases h

end
end Reader
end Ssp
