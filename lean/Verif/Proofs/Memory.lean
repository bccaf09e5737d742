import Verif.Proofs.GrowParser
/-!
# How much memory the line buffers take
-/
namespace Ssp

/-- from `P`, the operation ends in `Q`, or throws and ends in `E` -/
structure Hoare {σ α : Type} (P : σ → Prop) (m : M σ α) (Q : α → σ → Prop) (E : σ → Prop) : Prop where
  ok : ∀ s, P s → ∀ a t, m s = .ok a t → Q a t
  exc : ∀ s, P s → ∀ e t, m s = .exc e t → E t

namespace Hoare
variable {σ α β : Type}

theorem bind {P : σ → Prop} {Q : α → σ → Prop} {R : β → σ → Prop} {E : σ → Prop} {m : M σ α} {f : α → M σ β}
    (h : Hoare P m Q E) (hf : ∀ a, Hoare (Q a) (f a) R E) : Hoare P (m >>= f) R E := by
  constructor
  · intro s hs b t hb
    obtain ⟨a, s1, h1, h2⟩ := bind_ok_inv hb
    exact (hf a).ok _ (h.ok _ hs _ _ h1) _ _ h2
  · intro s hs e t hb
    rw [M.bind_apply] at hb
    cases hm : m s with
    | ok a s1 => rw [hm] at hb; exact (hf a).exc _ (h.ok _ hs _ _ hm) _ _ hb
    | exc e1 s1 => rw [hm] at hb; cases hb; exact h.exc _ hs _ _ hm
    | ub => rw [hm] at hb; cases hb
    | nofuel => rw [hm] at hb; cases hb

theorem pure {Q : α → σ → Prop} {E : σ → Prop} (a : α) : Hoare (Q a) (Pure.pure a : M σ α) Q E :=
  ⟨fun _ hs _ _ h => (by cases h; exact hs), fun _ _ _ _ h => (by cases h)⟩
theorem get {P : σ → Prop} {E : σ → Prop} : Hoare P (M.get : M σ σ) (fun a s => P s ∧ a = s) E :=
  ⟨fun _ hs _ _ h => (by cases h; exact ⟨hs, rfl⟩), fun _ _ _ _ h => (by cases h)⟩
theorem modify {P : σ → Prop} {Q : Unit → σ → Prop} {E : σ → Prop} {f : σ → σ} (hq : ∀ s, P s → Q () (f s)) : Hoare P (M.modify f) Q E :=
  ⟨fun _ hs _ _ h => (by cases h; exact hq _ hs), fun _ _ _ _ h => (by cases h)⟩
theorem ub {P : σ → Prop} {Q : α → σ → Prop} {E : σ → Prop} : Hoare P (M.ub : M σ α) Q E :=
  ⟨fun _ _ _ _ h => (by cases h), fun _ _ _ _ h => (by cases h)⟩
theorem nofuel {P : σ → Prop} {Q : α → σ → Prop} {E : σ → Prop} : Hoare P (M.nofuel : M σ α) Q E :=
  ⟨fun _ _ _ _ h => (by cases h), fun _ _ _ _ h => (by cases h)⟩

theorem ite {p : Prop} [Decidable p] {P : σ → Prop} {Q : α → σ → Prop} {E : σ → Prop} {m n : M σ α} (h : p → Hoare P m Q E)
    (h' : ¬ p → Hoare P n Q E) : Hoare P (if p then m else n) Q E := by
  by_cases hp : p
  · simp only [hp, if_true]; exact h hp
  · simp only [hp, if_false]; exact h' hp

theorem mono {P P' : σ → Prop} {Q Q' : α → σ → Prop} {E E' : σ → Prop} {m : M σ α} (h : Hoare P m Q E) (hp : ∀ s, P' s → P s)
    (hq : ∀ a s, Q a s → Q' a s) (he : ∀ s, E s → E' s) : Hoare P' m Q' E' :=
  ⟨fun s hs a t ht => hq _ _ (h.ok s (hp _ hs) a t ht), fun s hs a t ht => he _ (h.exc s (hp _ hs) a t ht)⟩

theorem pre {P P' : σ → Prop} {Q : α → σ → Prop} {E : σ → Prop} {m : M σ α} (h : Hoare P m Q E) (hp : ∀ s, P' s → P s) :
    Hoare P' m Q E := h.mono hp (fun _ _ i => i) (fun _ i => i)

theorem exOf {P : σ → Prop} {Q : α → σ → Prop} {E : σ → Prop} {m : M σ α} (h : Hoare P m Q fun _ => True) (hn : NoExc m) : Hoare P m Q E :=
  ⟨h.ok, fun s _ e t ht => absurd ht (hn.no s e t)⟩

end Hoare

/-- `P` is kept by an operation that relates the states before and after by `R` -/
theorem Relates.hoare {σ α : Type} {Q : Prop} {R : σ → σ → Prop} {m : M σ α} (h : Relates Q R m) {P : σ → Prop}
    (hp : ∀ s t, R s t → P s → P t) : Hoare P m (fun _ => P) P :=
  ⟨fun s hs a t ht => hp _ _ (h.ok s a t ht) hs, fun s hs a t ht => hp _ _ (h.exc s a t ht) hs⟩

/-! ## Lines -/

theorem upToLF_length_le {t : Bytes} {L : Nat} (h : ∀ l ∈ rawLines t, l.length ≤ L) : ∀ k, (Io.upToLF (t.drop k)).length ≤ L := by
  have first : ∀ t : Bytes, (∀ l ∈ rawLines t, l.length ≤ L) → (Io.upToLF t).length ≤ L := by
    intro t h
    by_cases ht : t = []
    · subst ht; simp [Io.upToLF]
    · rw [rawLines_cons ht] at h; exact h _ (by simp)
  induction t with
  | nil => intro k; simp [Io.upToLF]
  | cons b t ih =>
    intro k
    cases k with
    | zero => exact first _ h
    | succ k =>
      refine ih (fun l hl => ?_) k
      unfold rawLines at h
      by_cases hb : b = LF
      · rw [if_pos hb] at h; exact h l (by simp [hl])
      · rw [if_neg hb] at h
        cases hr : rawLines t with
        | nil => rw [hr] at hl; cases hl
        | cons l0 ls =>
          rw [hr] at h hl
          dsimp only at h
          rcases List.mem_cons.mp hl with rfl | hl
          · have := h (b :: l) (by simp)
            simp only [List.length_cons] at this
            omega
          · exact h l (by simp [hl])

theorem unread_drop (src : Src) (c f : Nat) : ∃ k, src.unread c f = src.data.drop k := by
  cases src with
  | file u d => exact ⟨f, rfl⟩
  | buf p n => exact ⟨c, rfl⟩

/-- one call of `get_line` -/
theorem getLine_facts {env : Env} {G L : Nat} (hG : ∀ t, env.grow t ≤ G) {src : Src} (hf : src.Fine)
    (hL : ∀ l ∈ rawLines src.data, l.length ≤ L) {s t : Io} {r : Option Nat} (hs : s.Sized) (h : Io.getLine env src s = .ok r t) :
    t.Sized ∧ t.n ≤ max s.n (max 128 (2 * L + 1 + G)) ∧
    ((r = none ∧ src.unread t.curr t.fpos = []) ∨ ∃ k, r = some k ∧ k ≤ L ∧ src.unread s.curr s.fpos ≠ [] ∧
      k + (src.unread t.curr t.fpos).length = (src.unread s.curr s.fpos).length ∧
      (src.unread t.curr t.fpos ≠ [] → t.mem[k - 1]? = some LF)) := by
  obtain ⟨h1, h2⟩ := getLine_n hG hf hs h
  by_cases hu : src.unread s.curr s.fpos = []
  · obtain ⟨J, t', g1, _, _, _, g5⟩ := getLine_eof (env := env) hf hs hu
    rw [h] at g1
    cases g1
    refine ⟨h1, ?_, .inl ⟨rfl, g5⟩⟩
    simp only [Option.getD_none] at h2
    omega
  · obtain ⟨J, t', g1, g2, _, _, g5⟩ := getLine_line (env := env) hf hs hu
    rw [h] at g1
    cases g1
    have hk : (Io.upToLF (src.unread s.curr s.fpos)).length ≤ L := by
      obtain ⟨k, hk⟩ := unread_drop src s.curr s.fpos
      rw [hk]; exact upToLF_length_le hL k
    have hsp := upToLF_split (src.unread s.curr s.fpos)
    have hne := upToLF_ne hu
    have hlast := fun hr => upToLF_last (a := Io.upToLF (src.unread s.curr s.fpos))
      (r := (src.unread s.curr s.fpos).drop (Io.upToLF (src.unread s.curr s.fpos)).length) (by rw [← hsp]) hr
    generalize hv : Io.upToLF (src.unread s.curr s.fpos) = v at *
    refine ⟨h1, ?_, .inr ⟨v.length, rfl, hk, hu, ?_, ?_⟩⟩
    · simp only [Option.getD_some] at h2
      omega
    · rw [g5]
      have := congrArg List.length hsp
      simp only [List.length_append] at this
      omega
    · intro hr
      rw [g5] at hr
      have hl := hlast hr
      have hpos : 0 < v.length := List.length_pos_iff.mpr hne
      rw [g2]
      unfold Io.stored
      rw [List.getElem?_append_left (by omega), ← List.getLast?_eq_getElem?]
      exact hl

/-- `remove_eol` takes off what it finds -/
theorem Reader.eolSize_facts {mem : Bytes} {k n : Nat} {c : Bool} (h : Reader.eolSize mem k = some (n, c)) :
    n ≤ k ∧ (mem[k - 1]? = some LF → n + (if c then 2 else 1) = k) := by
  unfold eolSize at h
  by_cases hk : k = 0
  · rw [if_pos hk] at h; cases h
  · rw [if_neg hk] at h
    cases hm : mem[k - 1]? with
    | none => rw [hm] at h; cases h
    | some b =>
      rw [hm] at h
      dsimp only at h
      by_cases hb : b = LF
      · rw [if_neg (by simpa using hb)] at h
        by_cases h2 : k ≥ 2 ∧ mem[k - 2]? = some CR
        · rw [if_pos h2] at h; cases h; exact ⟨by omega, fun _ => by simp; omega⟩
        · rw [if_neg h2] at h; cases h; exact ⟨by omega, fun _ => by simp; omega⟩
      · rw [if_pos hb] at h; cases h
        exact ⟨Nat.le_refl _, fun e => absurd (Option.some.inj e) hb⟩

/-! ## The reader -/
namespace Reader

/-- the buffers have their sizes, and these are at most `B` -/
structure Small (B : Nat) (s : Reader) : Prop where
  sized : s.Sized
  cur : s.cur.conv.spl.mem.length ≤ B
  next : s.next.conv.spl.mem.length ≤ B
  helper : s.helper.length ≤ B

/-- the number of bytes `undo_remove_eol` puts back at most -/
def eol (s : Reader) : Nat := if s.crlf then 2 else 1

/-- the row in the next line buffer is made of `k + 1` lines: it is not longer than that many lines, nor than what was read;
except at the end, where nothing can be appended to it -/
def Row (x : Ctx) (L k : Nat) (s : Reader) : Prop :=
  left x s = [] ∨ (s.nextLineSize + s.eol ≤ (k + 1) * L ∧ s.nextLineSize + s.eol + (left x s).length ≤ x.src.data.length)

/-- the same behind `undo_remove_eol` -/
def Undone (x : Ctx) (L k : Nat) (s : Reader) : Prop :=
  left x s = [] ∨ (s.nextLineSize ≤ (k + 1) * L ∧ s.nextLineSize + (left x s).length ≤ x.src.data.length)

/-- the numbers: `L` bounds the lines, `G` what `getline` allocates too much, `B` the buffers -/
structure Fit (x : Ctx) (L G B : Nat) : Prop where
  fine : x.src.Fine
  grow : ∀ t, x.env.grow t ≤ G
  line : ∀ l ∈ rawLines x.src.data, l.length ≤ L
  least : 128 ≤ B
  one : 2 * L + 1 + G ≤ B
  row : x.cfg.multiline = true → x.src.data.length + 3 ≤ B ∨ (0 < x.cfg.mlLimit ∧ (x.cfg.mlLimit + 1) * L + 3 ≤ B)

theorem Still.small {B : Nat} {s t : Reader} (h : Still s t) (i : Small B s) : Small B t :=
  ⟨h.quiet.sized i.sized, by rw [h.cur.1]; exact i.cur, by rw [h.next.1]; exact i.next, by rw [h.helper.1]; exact i.helper⟩

theorem Still.left {x : Ctx} {s t : Reader} (h : Still s t) : left x t = left x s := by
  unfold Reader.left; rw [h.curr, h.fpos]

theorem Still.row {x : Ctx} {L k : Nat} {s t : Reader} (h : Still s t) (i : Row x L k s) : Row x L k t := by
  unfold Row eol at *
  rw [h.left, h.nls, h.crlf]; exact i

variable {Q : Prop}

theorem tb {α β : Type} {m : M Reader α} {f : α → M Reader β} (h : Relates Q Still m) (hf : ∀ a, Relates Q Still (f a)) :
    Relates Q Still (m >>= f) := Relates.bind (R := Still) (fun _ _ _ => Still.trans) h hf
theorem tp {α : Type} (a : α) : Relates Q Still (Pure.pure a : M Reader α) := Relates.pure Still.refl a
theorem tg : Relates Q Still (M.get : M Reader Reader) := Relates.get Still.refl

theorem still_onNext {α : Type} {m : M Conv α} (h : Conv.Keeping Q m) : Relates Q Still (onNext m) := by
  constructor
  · intro s a s' hs
    unfold onNext at hs
    cases hm : m s.next.conv with
    | ok b cv => rw [hm] at hs; cases hs; exact ⟨rfl, rfl, rfl, rfl, rfl, rfl, ⟨rfl, rfl⟩, ⟨(h.ok _ _ _ hm).1, rfl⟩, ⟨rfl, rfl⟩⟩
    | exc e cv => rw [hm] at hs; cases hs
    | ub => rw [hm] at hs; cases hs
    | nofuel => rw [hm] at hs; cases hs
  · intro s a s' hs
    unfold onNext at hs
    cases hm : m s.next.conv with
    | ok b cv => rw [hm] at hs; cases hs
    | exc e cv => rw [hm] at hs; cases hs; exact ⟨rfl, rfl, rfl, rfl, rfl, rfl, ⟨rfl, rfl⟩, ⟨(h.exc _ _ _ hm).1, rfl⟩, ⟨rfl, rfl⟩⟩
    | ub => rw [hm] at hs; cases hs
    | nofuel => rw [hm] at hs; cases hs
  · intro s a s' hs
    unfold onNext at hs
    cases hm : m s.next.conv with
    | ok b cv => rw [hm] at hs; cases hs
    | exc e cv => exact h.thr _ _ _ hm
    | ub => rw [hm] at hs; cases hs
    | nofuel => rw [hm] at hs; cases hs

theorem still_wrNext (p : Nat) (b : Byte) : Relates Q Still (wrNext p b) := by
  refine Relates.quiet ?_ ?_ <;> intro s a s' h <;> unfold wrNext at h <;> by_cases hp : p < s.next.conv.spl.mem.length
  · rw [if_pos hp] at h
    cases h
    exact ⟨rfl, rfl, rfl, rfl, rfl, rfl, ⟨rfl, rfl⟩, ⟨by simp, rfl⟩, ⟨rfl, rfl⟩⟩
  · rw [if_neg hp] at h; cases h
  · rw [if_pos hp] at h; cases h
  · rw [if_neg hp] at h; cases h

theorem still_rdNext (p : Nat) : Relates Q Still (rdNext p) := by
  constructor <;> intro s a s' h <;> unfold rdNext at h <;> cases hp : s.next.conv.spl.mem[p]? <;> rw [hp] at h <;> cases h
  exact Still.refl _

theorem still_multilineLimitReached (x : Ctx) (k : Nat) : Relates (x.cfg.mode = .throw) Still (multilineLimitReached x k) :=
  Relates.ite (tb (still_onNext (Conv.keep_handleErrorMultilineLimit _)) fun _ => tp _) (tp _)

theorem still_countEscapes (c : Cfg) : ∀ p, Relates Q Still (countEscapes c p)
  | 0 => tp _
  | p + 1 => tb (still_rdNext p) fun _ => Relates.ite (tb (still_countEscapes c p) fun _ => tp _) (tp _)

theorem still_escapedEol (x : Ctx) (k : Nat) : Relates Q Still (escapedEol x k) := tb (still_countEscapes _ k) fun _ => tp _

/-- `remove_eol` of the next line buffer -/
theorem removeEolNext_facts {k n : Nat} {s t : Reader} (h : removeEolNext k s = .ok n t) :
    n ≤ k ∧ (s.next.conv.spl.mem[k - 1]? = some LF → n + t.eol = k) ∧ Still { s with crlf := t.crlf } t := by
  unfold removeEolNext at h
  simp only [M.get_bind] at h
  cases he : eolSize s.next.conv.spl.mem k with
  | none => rw [he] at h; cases h
  | some p =>
    obtain ⟨size, c⟩ := p
    rw [he] at h
    dsimp only at h
    simp only [M.modify_bind] at h
    obtain ⟨e1, e2⟩ := eolSize_facts he
    by_cases hz : size = k
    · rw [if_pos hz] at h; cases h
      exact ⟨e1, e2, Still.refl _⟩
    · rw [if_neg hz] at h
      obtain ⟨u, s1, h1, h2⟩ := bind_ok_inv h
      cases h2
      have hq := (still_wrNext (Q := True) _ _).ok _ _ _ h1
      have hc : t.crlf = c := hq.crlf
      refine ⟨e1, ?_, ?_⟩
      · intro hl; unfold eol; rw [hc]; exact e2 hl
      · rw [hc]; exact hq

theorem removeEolHelper_facts {k n : Nat} {s t : Reader} (h : removeEolHelper k s = .ok n t) :
    n ≤ k ∧ (s.helper[k - 1]? = some LF → n + t.eol = k) ∧ Still { s with crlf := t.crlf } t := by
  unfold removeEolHelper at h
  simp only [M.get_bind] at h
  cases he : eolSize s.helper k with
  | none => rw [he] at h; cases h
  | some p =>
    obtain ⟨size, c⟩ := p
    rw [he] at h
    dsimp only at h
    obtain ⟨e1, e2⟩ := eolSize_facts he
    by_cases hz : size = k
    · rw [if_pos hz] at h; cases h
      exact ⟨e1, e2, Still.refl _⟩
    · rw [if_neg hz] at h
      by_cases hl : size < s.helper.length
      · rw [if_pos hl] at h; cases h
        exact ⟨e1, e2, ⟨rfl, rfl, rfl, rfl, rfl, rfl, ⟨rfl, rfl⟩, ⟨rfl, rfl⟩, ⟨by simp, rfl⟩⟩⟩
      · rw [if_neg hl] at h; cases h

section
variable {x : Ctx} {L G B : Nat} (hx : Fit x L G B)
include hx

theorem getLineNext_facts {s t : Reader} {r : Option Nat} (hs : Small B s) (h : getLineNext x s = .ok r t) :
    Small B t ∧ ((r = none ∧ left x t = []) ∨ ∃ k, r = some k ∧ k ≤ L ∧ k + (left x t).length = (left x s).length ∧
      (left x t ≠ [] → t.next.conv.spl.mem[k - 1]? = some LF)) := by
  unfold getLineNext at h
  cases hm : Io.getLine x.env x.src s.ioNext with
  | ok r' io =>
    rw [hm] at h
    cases h
    obtain ⟨h1, h2, h3⟩ := getLine_facts hx.grow hx.fine hx.line (show s.ioNext.Sized from hs.sized.next) hm
    have hn : s.ioNext.n ≤ B := by show s.next.size ≤ B; rw [hs.sized.next]; exact hs.next
    have h1' : io.n = io.mem.length := h1
    refine ⟨⟨⟨hs.sized.cur, h1, hs.sized.helper⟩, hs.cur, ?_, hs.helper⟩, ?_⟩
    · show io.mem.length ≤ B
      have := hx.least
      have := hx.one
      omega
    · rcases h3 with h3 | ⟨k, k1, k2, k3, k4, k5⟩
      · exact .inl h3
      · exact .inr ⟨k, k1, k2, k4, k5⟩
  | exc e io => rw [hm] at h; cases h
  | ub => rw [hm] at h; cases h
  | nofuel => rw [hm] at h; cases h

theorem getLineHelper_facts {s t : Reader} {r : Option Nat} (hs : Small B s) (h : getLineHelper x s = .ok r t) :
    Small B t ∧ t.nextLineSize = s.nextLineSize ∧ ((r = none ∧ left x t = []) ∨ ∃ k, r = some k ∧ k ≤ L ∧ left x s ≠ [] ∧
      k + (left x t).length = (left x s).length ∧ (left x t ≠ [] → t.helper[k - 1]? = some LF)) := by
  unfold getLineHelper at h
  cases hm : Io.getLine x.env x.src s.ioHelper with
  | ok r' io =>
    rw [hm] at h
    cases h
    obtain ⟨h1, h2, h3⟩ := getLine_facts hx.grow hx.fine hx.line (show s.ioHelper.Sized from hs.sized.helper) hm
    have hn : s.ioHelper.n ≤ B := by show s.helperSize ≤ B; rw [hs.sized.helper]; exact hs.helper
    have h1' : io.n = io.mem.length := h1
    refine ⟨⟨⟨hs.sized.cur, hs.sized.next, h1⟩, hs.cur, hs.next, ?_⟩, rfl, ?_⟩
    · show io.mem.length ≤ B
      have := hx.least
      have := hx.one
      omega
    · rcases h3 with h3 | ⟨k, k1, k2, k3, k4, k5⟩
      · exact .inl h3
      · exact .inr ⟨k, k1, k2, k3, k4, k5⟩
  | exc e io => rw [hm] at h; cases h
  | ub => rw [hm] at h; cases h
  | nofuel => rw [hm] at h; cases h

theorem readNextLoop_small : ∀ (f : Nat) (s t : Reader) (b : Bool), Small B s → readNextLoop x f s = .ok b t → Small B t ∧ Row x L 0 t := by
  intro f
  induction f with
  | zero => intro s t b _ h; cases h
  | succ f ih =>
    intro s t b hs h
    obtain ⟨s1, k1, k2, k3, _, ⟨c1, c2, c3⟩, k5⟩ := loop_start hs.sized
    rw [k5] at h
    have hs1 : Small B s1 := ⟨k1, by rw [c1]; exact hs.cur, by rw [← k1.next, c2, hs.sized.next]; exact hs.next, by rw [c3]; exact hs.helper⟩
    obtain ⟨r, s2, h1, h2⟩ := bind_ok_inv h
    obtain ⟨g1, g2⟩ := getLineNext_facts hx hs1 h1
    rcases g2 with ⟨rfl, g2⟩ | ⟨k, rfl, g3, g4, g5⟩
    · cases h2; exact ⟨g1, .inl g2⟩
    · dsimp only at h2
      obtain ⟨size, s3, h3, h4⟩ := bind_ok_inv h2
      obtain ⟨e1, e2, e3⟩ := removeEolNext_facts h3
      have hs3 : Small B s3 := e3.small ⟨⟨g1.sized.cur, g1.sized.next, g1.sized.helper⟩, g1.cur, g1.next, g1.helper⟩
      by_cases he : x.cfg.ignoreEmpty = true ∧ size = 0
      · rw [if_pos he] at h4; exact ih _ _ _ hs3 h4
      · rw [if_neg he] at h4
        cases h4
        refine ⟨⟨⟨hs3.sized.cur, hs3.sized.next, hs3.sized.helper⟩, hs3.cur, hs3.next, hs3.helper⟩, ?_⟩
        have hl : left x s3 = left x s2 := by
          have := e3.left (x := x)
          exact this
        by_cases hn : left x s3 = []
        · exact .inl hn
        · right
          rw [hl] at hn
          have e2 := e2 (g5 hn)
          show size + s3.eol ≤ (0 + 1) * L ∧ size + s3.eol + (left x s3).length ≤ x.src.data.length
          rw [hl, e2, g4]
          refine ⟨by omega, ?_⟩
          obtain ⟨j, hj⟩ := unread_drop x.src s1.curr s1.fpos
          show (x.src.unread s1.curr s1.fpos).length ≤ _
          rw [hj]; simp

theorem hoare_readNext (E : Reader → Prop) : Hoare (Small B) (readNext x) (fun _ s => Small B s ∧ Row x L 0 s) E := by
  refine Hoare.exOf ⟨fun s hs b t h => ?_, fun _ _ _ _ _ => trivial⟩ (noexc_readNext x)
  obtain ⟨u, s1, h1, h2⟩ := bind_ok_inv h
  exact readNextLoop_small hx _ _ _ _ (((still_onNext (Conv.keep_clearError x.cfg)).ok _ _ _ h1).small hs) h2

omit hx in
theorem undo_facts {s t : Reader} {u : Unit} (h : undoRemoveEol s = .ok u t) :
    ∃ n, n ≤ s.nextLineSize + s.eol ∧ t.nextLineSize = n ∧ Still { s with nextLineSize := n } t := by
  unfold undoRemoveEol at h
  simp only [M.get_bind] at h
  have hw := fun p b => still_wrNext (Q := True) p b
  by_cases h1 : s.crlf = true ∧ s.next.size ≥ s.nextLineSize + 2
  · rw [if_pos h1] at h
    obtain ⟨_, s1, g1, h⟩ := bind_ok_inv h
    obtain ⟨_, s2, g2, h⟩ := bind_ok_inv h
    cases h
    have hq := ((hw _ _).ok _ _ _ g1).trans ((hw _ _).ok _ _ _ g2)
    refine ⟨s.nextLineSize + 2, by simp [eol, h1.1], by show s2.nextLineSize + 2 = _; rw [hq.nls], ?_⟩
    exact ⟨hq.chars, hq.curr, hq.fpos, hq.ln, by show s2.nextLineSize + 2 = _; rw [hq.nls], hq.crlf, hq.cur, hq.next, hq.helper⟩
  · rw [if_neg h1] at h
    by_cases h2 : s.next.size > s.nextLineSize
    · rw [if_pos h2] at h
      obtain ⟨_, s1, g1, h⟩ := bind_ok_inv h
      cases h
      have hq := (hw _ _).ok _ _ _ g1
      refine ⟨s.nextLineSize + 1, by unfold eol; split <;> omega, by show s1.nextLineSize + 1 = _; rw [hq.nls], ?_⟩
      exact ⟨hq.chars, hq.curr, hq.fpos, hq.ln, by show s1.nextLineSize + 1 = _; rw [hq.nls], hq.crlf, hq.cur, hq.next, hq.helper⟩
    · rw [if_neg h2] at h
      cases h
      exact ⟨s.nextLineSize, by omega, rfl, Still.refl _⟩

/-- `append_next_line_to_buffer` -/
theorem append_small (hm : x.cfg.multiline = true) {k : Nat} (hk : 0 < x.cfg.mlLimit → k < x.cfg.mlLimit) {s t : Reader} {b : Bool}
    (hs : Small B s) (hr : Row x L k s) (h : appendNextLine x s = .ok b t) : Small B t ∧ Row x L (k + 1) t := by
  unfold appendNextLine at h
  obtain ⟨_, s1, h1, h⟩ := bind_ok_inv h
  obtain ⟨n, u1, u2, u3⟩ := undo_facts h1
  have hs1 : Small B s1 := u3.small ⟨⟨hs.sized.cur, hs.sized.next, hs.sized.helper⟩, hs.cur, hs.next, hs.helper⟩
  have hl1 : left x s1 = left x s := u3.left (x := x)
  simp only [M.modify_bind] at h
  obtain ⟨r, s2, h2, h⟩ := bind_ok_inv h
  obtain ⟨g1, g2, g3⟩ := getLineHelper_facts hx (s := { s1 with charsRead := s1.curr })
    ⟨⟨hs1.sized.cur, hs1.sized.next, hs1.sized.helper⟩, hs1.cur, hs1.next, hs1.helper⟩ h2
  rcases g3 with ⟨rfl, g3⟩ | ⟨c, rfl, c1, c2, c3, c4⟩
  · cases h; exact ⟨g1, .inl g3⟩
  · dsimp only at h
    simp only [M.modify_bind] at h
    obtain ⟨size, s3, h3, h⟩ := bind_ok_inv h
    obtain ⟨e1, e2, e3⟩ := removeEolHelper_facts h3
    obtain ⟨_, s4, h4, h⟩ := bind_ok_inv h
    cases h
    have hs3 : Small B s3 := e3.small ⟨⟨g1.sized.cur, g1.sized.next, g1.sized.helper⟩, g1.cur, g1.next, g1.helper⟩
    have hl3 : left x s3 = left x s2 := e3.left (x := x)
    have c2 : left x s ≠ [] := by rw [← hl1]; exact c2
    have c3 : c + (left x s2).length = (left x s).length := by rw [← hl1]; exact c3
    obtain ⟨r1, r2⟩ := hr.resolve_left c2
    have hn3 : s3.nextLineSize = n := by rw [← u2]; exact e3.nls.trans g2
    have hmul : (k + 1 + 1) * L = (k + 1) * L + L := Nat.succ_mul _ _
    unfold reallocConcat at h4
    dsimp only at h4
    by_cases hp : size + 1 ≤ s3.helper.length
    · rw [if_pos hp] at h4
      cases h4
      have hlen : s3.nextLineSize + size + 3 ≤ B := by
        rw [hn3]
        rcases hx.row hm with hb | ⟨hb1, hb2⟩
        · omega
        · have hk := hk hb1
          have : (k + 1 + 1) * L ≤ (x.cfg.mlLimit + 1) * L := Nat.mul_le_mul_right L (by omega)
          omega
      refine ⟨⟨⟨hs3.sized.cur, ?_, hs3.sized.helper⟩, hs3.cur, ?_, hs3.helper⟩, ?_⟩
      · simp only [List.length_append, List.length_take, List.length_drop, List.length_map, List.length_range]
        omega
      · simp only [List.length_append, List.length_take, List.length_drop, List.length_map, List.length_range]
        omega
      · by_cases hn : left x s3 = []
        · exact .inl hn
        · right
          show s3.nextLineSize + size + s3.eol ≤ (k + 1 + 1) * L ∧ s3.nextLineSize + size + s3.eol + (left x s3).length ≤ x.src.data.length
          have e2 := e2 (c4 (by rw [← hl3]; exact hn))
          rw [hl3, hn3]
          omega
    · rw [if_neg hp] at h4; cases h4

/-- the row, in a loop with the counter `k` -/
def At (x : Ctx) (L B k : Nat) (s : Reader) : Prop := Small B s ∧ Row x L k s ∧ (0 < x.cfg.mlLimit → k ≤ x.cfg.mlLimit)

omit hx in
theorem At.still {k : Nat} {s t : Reader} (h : Still s t) (i : At x L B k s) : At x L B k t := ⟨h.small i.1, h.row i.2.1, i.2.2⟩

omit hx in
theorem hoare_limit (k : Nat) : Hoare (At x L B k) (multilineLimitReached x k)
    (fun b s => At x L B k s ∧ (b = false → 0 < x.cfg.mlLimit → k < x.cfg.mlLimit)) (Small B) := by
  constructor
  · intro s hs b t h
    refine ⟨hs.still ((still_multilineLimitReached x k).ok _ _ _ h), ?_⟩
    intro hb hp
    subst hb
    unfold multilineLimitReached at h
    by_cases hc : x.cfg.mlLimit > 0 ∧ k ≥ x.cfg.mlLimit
    · rw [if_pos hc] at h
      obtain ⟨_, s1, h1, h⟩ := bind_ok_inv h
      cases h
    · omega
  · intro s hs e t h
    exact (hs.still ((still_multilineLimitReached x k).exc _ _ _ h)).1

theorem hoare_append (hm : x.cfg.multiline = true) (k : Nat) :
    Hoare (fun s => At x L B k s ∧ (0 < x.cfg.mlLimit → k < x.cfg.mlLimit)) (appendNextLine x) (fun _ => At x L B (k + 1)) (Small B) :=
  Hoare.exOf ⟨fun s hs b t h => by
    obtain ⟨h1, h2⟩ := append_small hx hm hs.2 hs.1.1 hs.1.2.1 h
    exact ⟨h1, h2, fun h => hs.2 h⟩, fun _ _ _ _ _ => trivial⟩ (noexc_append x)

/-- the state behind an escape loop -/
def After (x : Ctx) (L B : Nat) (r : Option Nat) (s : Reader) : Prop :=
  match r with
  | none => Small B s
  | some k => At x L B k s

theorem hoare_escapeLoop (hm : x.cfg.multiline = true) : ∀ (f k : Nat), Hoare (At x L B k) (escapeLoop x f k) (After x L B) (Small B)
  | 0, _ => Hoare.nofuel
  | f + 1, k => by
    unfold escapeLoop
    refine Hoare.bind (Hoare.get (E := Small B)) fun s => Hoare.bind (Q := fun _ => At x L B k) ?_ fun b => Hoare.ite (fun _ => ?_) fun _ => (Hoare.pure (some k)).pre fun _ i => i
    · exact ((still_escapedEol (Q := True) x _).hoare fun s t h i => i.still h).mono (fun _ i => i.1) (fun _ _ i => i) (fun _ i => i.1)
    · refine Hoare.bind (hoare_limit k) fun b => Hoare.ite (fun _ => (Hoare.pure none).pre fun s i => i.1.1) fun hb => ?_
      refine Hoare.bind ((hoare_append hx hm k).pre fun s i => ⟨i.1, i.2 (by simpa using hb)⟩) fun b => Hoare.ite (fun _ => hoare_escapeLoop hm f (k + 1)) fun _ => ?_
      exact Hoare.bind (((still_onNext (Conv.keep_handleErrorUnterminatedEscape _)).hoare (P := Small B) fun s t h i => h.small i).pre
        fun s i => i.1) fun _ => (Hoare.pure none).pre fun _ i => i

theorem hoare_escapeLoopIf (k : Nat) : Hoare (At x L B k) (escapeLoopIf x k) (After x L B) (Small B) :=
  Hoare.ite (fun h => hoare_escapeLoop hx h.1 _ _) fun _ => (Hoare.pure (some k)).pre fun _ i => i

theorem hoare_quoteLoop (hm : x.cfg.multiline = true) : ∀ (f k : Nat), Hoare (At x L B k) (quoteLoop x f k) (fun _ => Small B) (Small B)
  | 0, _ => Hoare.nofuel
  | f + 1, k => by
    unfold quoteLoop
    refine Hoare.bind (Hoare.get (E := Small B)) fun s => Hoare.ite (fun _ => Hoare.ite (fun _ => Hoare.ub) fun _ => ?_)
      fun _ => (Hoare.pure ()).pre fun s i => i.1.1
    refine Hoare.bind (Hoare.modify (Q := fun _ => At x L B k) fun s i => ?_) fun _ => Hoare.bind (hoare_limit k) fun b =>
      Hoare.ite (fun _ => (Hoare.pure ()).pre fun s i => i.1.1) fun hb => ?_
    · refine ⟨⟨⟨i.1.1.sized.cur, i.1.1.sized.next, i.1.1.sized.helper⟩, i.1.1.cur, i.1.1.next, i.1.1.helper⟩, ?_, i.1.2.2⟩
      rcases i.1.2.1 with h | ⟨h1, h2⟩
      · exact .inl h
      · right
        show s.nextLineSize - _ + s.eol ≤ _ ∧ s.nextLineSize - _ + s.eol + (left x s).length ≤ _
        omega
    · refine Hoare.bind ((hoare_append hx hm k).pre fun s i => ⟨i.1, i.2 (by simpa using hb)⟩) fun b => Hoare.ite (fun _ => ?_) fun _ => ?_
      · refine Hoare.bind (hoare_escapeLoopIf hx (k + 1)) fun r => ?_
        cases r with
        | none => exact (Hoare.pure ()).pre fun _ i => i
        | some l =>
          refine Hoare.bind (Hoare.get (E := Small B)) fun s => Hoare.bind (Q := fun _ => At x L B l) ?_ fun _ => hoare_quoteLoop hm f l
          exact ((still_onNext (Conv.keep_onSpl (Spl.keep_resplit _ _ _))).hoare fun s t h i => At.still h i).mono (fun _ i => i.1)
            (fun _ _ i => i) (fun _ i => i.1)
      · exact ((still_onNext (Conv.keep_handleErrorUnterminatedQuote _)).hoare (P := Small B) fun s t h i => h.small i).pre fun s i => i.1

theorem hoare_parse : Hoare (fun s => Small B s ∧ Row x L 0 s) (parse x) (fun _ => Small B) (Small B) := by
  unfold parse
  refine Hoare.bind ((hoare_escapeLoopIf hx 0).pre fun s i => ⟨i.1, i.2, fun _ => by omega⟩) fun r => ?_
  cases r with
  | none => exact (Hoare.pure ()).pre fun _ i => i
  | some l =>
    refine Hoare.bind (Q := fun _ => At x L B l) ?_ fun _ => Hoare.ite (fun h => hoare_quoteLoop hx h.1 _ _) fun _ => (Hoare.pure ()).pre fun s i => i.1
    exact ((still_onNext (Conv.keep_split _ _)).hoare fun s t h i => At.still h i).mono (fun _ i => i)
            (fun _ _ i => i) (fun _ i => i.1)

end
end Reader

/-! ## The parser -/
namespace Parser

/-- the buffers are small -/
def Small (B : Nat) (s : Parser) : Prop := s.rd.Small B
/-- the buffers are small, and the next line is a line -/
def Ready (x : Ctx) (L B : Nat) (s : Parser) : Prop := s.rd.Small B ∧ Reader.Row x L 0 s.rd

theorem Quiet.small {B : Nat} {s t : Parser} (h : Quiet s t) (i : Small B s) : Small B t := h.rd.small i
theorem Quiet.ready {x : Ctx} {L B : Nat} {s t : Parser} (h : Quiet s t) (i : Ready x L B s) : Ready x L B t := ⟨h.rd.small i.1, h.rd.row i.2⟩

theorem hoare_onRd {α : Type} {P : Reader → Prop} {Q : α → Reader → Prop} {E : Reader → Prop} {m : M Reader α} (h : Hoare P m Q E) :
    Hoare (fun s => P s.rd) (onRd m) (fun a s => Q a s.rd) (fun s => E s.rd) := by
  constructor
  · intro s hs a t ht
    unfold onRd at ht
    cases hm : m s.rd with
    | ok b r => rw [hm] at ht; cases ht; exact h.ok _ hs _ _ hm
    | exc e r => rw [hm] at ht; cases ht
    | ub => rw [hm] at ht; cases ht
    | nofuel => rw [hm] at ht; cases ht
  · intro s hs a t ht
    unfold onRd at ht
    cases hm : m s.rd with
    | exc b r => rw [hm] at ht; cases ht; exact h.exc _ hs _ _ hm
    | ok e r => rw [hm] at ht; cases ht
    | ub => rw [hm] at ht; cases ht
    | nofuel => rw [hm] at ht; cases ht

theorem hoare_tryCatch {α : Type} {P E E' : Parser → Prop} {Q : α → Parser → Prop} {m : M Parser α} {h : Bytes → M Parser α}
    (hm : Hoare P m Q E) (hh : ∀ e, Hoare E (h e) Q E') : Hoare P (tryCatch m h) Q E' := by
  constructor
  · intro s hs a t ht
    unfold tryCatch at ht
    cases h1 : m s with
    | ok b s1 => rw [h1] at ht; cases ht; exact hm.ok _ hs _ _ h1
    | exc e s1 => rw [h1] at ht; exact (hh e).ok _ (hm.exc _ hs _ _ h1) _ _ ht
    | ub => rw [h1] at ht; cases ht
    | nofuel => rw [h1] at ht; cases ht
  · intro s hs a t ht
    unfold tryCatch at ht
    cases h1 : m s with
    | ok b s1 => rw [h1] at ht; cases ht
    | exc e s1 => rw [h1] at ht; exact (hh e).exc _ (hm.exc _ hs _ _ h1) _ _ ht
    | ub => rw [h1] at ht; cases ht
    | nofuel => rw [h1] at ht; cases ht

variable {Q : Prop}

theorem hq {α : Type} {x : Ctx} {L B : Nat} {m : M Parser α} (h : Relates Q Quiet m) : Hoare (Ready x L B) m (fun _ => Ready x L B) (Ready x L B) :=
  h.hoare fun _ _ h i => h.ready i

theorem hqs {α : Type} {B : Nat} {m : M Parser α} (h : Relates Q Quiet m) : Hoare (Small B) m (fun _ => Small B) (Small B) :=
  h.hoare fun _ _ h i => h.small i

section
variable {x : Ctx} {L G B : Nat} (hx : Reader.Fit x L G B)
include hx

theorem hoare_readLine (E : Parser → Prop) : Hoare (Small B) (readLine x) (fun _ => Ready x L B) E := by
  refine Hoare.exOf ⟨fun s hs u t h => ?_, fun _ _ _ _ _ => trivial⟩ (noexc_readLine x)
  obtain ⟨b, r, h1, rfl⟩ := readLine_inv h
  exact (Reader.hoare_readNext hx fun _ => True).ok _ hs _ _ h1

theorem hoare_ignoreNext (E : Parser → Prop) : Hoare (Ready x L B) (ignoreNext x) (fun _ => Ready x L B) E :=
  ((hoare_onRd (Reader.hoare_readNext hx fun _ => True)).pre fun _ i => i.1).exOf (noexc_onRd (Reader.noexc_readNext x))

theorem hoare_parseRow : Hoare (Ready x L B) (parseRow x) (fun _ => Small B) (Ready x L B) := by
  have hp : Hoare (Ready x L B) (onRd (Reader.parse x)) (fun _ => Small B) (Small B) := hoare_onRd (Reader.hoare_parse hx)
  have hno := fun hm => noexc_onRd (Reader.noexc_parse x hm)
  unfold parseRow
  cases hm : x.cfg.mode
  · exact (hp.mono (fun _ i => i) (fun _ _ i => i) fun _ _ => trivial).exOf (hno (by simp [hm]))
  · exact (hp.mono (fun _ i => i) (fun _ _ i => i) fun _ _ => trivial).exOf (hno (by simp [hm]))
  · refine hoare_tryCatch hp fun e => ?_
    exact Hoare.bind (hoare_readLine hx (Ready x L B)) fun _ => (hq (quiet_decorateRethrow x e)).mono (fun _ i => i) (fun _ _ i => i.1) (fun _ i => i)

/-- read the next line after something that reads nothing -/
theorem hoare_then_readLine {α : Type} {m : M Parser α} (h : Relates Q Quiet m) (hn : NoExc m) (E : Parser → Prop) :
    Hoare (Small B) (m >>= fun v => readLine x >>= fun _ => pure v) (fun _ => Ready x L B) E :=
  Hoare.bind (Hoare.exOf ((hqs h).mono (fun _ i => i) (fun _ _ i => i) fun _ _ => trivial) hn) fun v => Hoare.bind (hoare_readLine hx E) fun _ =>
    Hoare.pure (Q := fun _ => Ready x L B) v

theorem hoare_convertRow (rs : List Req) : Hoare (Small B) (convertRow x rs) (fun _ => Ready x L B) (Ready x L B) := by
  have hc := quiet_onCur (Conv.keep_convertCached x.cfg rs)
  have hsome : ∀ (h : ¬ x.cfg.mode = .throw), Hoare (Small B)
      (onCur (Conv.convertCached x.cfg rs) >>= fun v => M.get >>= fun s =>
        (if Conv.valid x.cfg s.rd.cur.conv then pure () else handleErrorInvalidConversion x) >>= fun _ => readLine x >>= fun _ => pure v)
      (fun _ => Ready x L B) (Ready x L B) := by
    intro h
    refine Hoare.bind (Hoare.exOf ((hqs (B := B) hc).mono (fun _ i => i) (fun _ _ i => i) fun _ _ => trivial) (hc.noexc h)) fun v =>
      Hoare.bind Hoare.get fun s => Hoare.bind (Q := fun _ => Small B) ?_ fun _ => Hoare.bind (hoare_readLine hx _) fun _ =>
        Hoare.pure (Q := fun _ => Ready x L B) v
    refine (Hoare.exOf ((hqs (B := B) (Relates.ite (qp (Q := False) ()) (quiet_handleErrorInvalidConversion x))).mono (fun _ i => i) (fun _ _ i => i)
      fun _ _ => trivial) ?_).pre fun s i => i.1
    exact NoExc.ite (NoExc.pure _) (NoExc.modify _)
  unfold convertRow
  cases hm : x.cfg.mode
  · exact hsome (by simp [hm])
  · exact hsome (by simp [hm])
  · refine hoare_tryCatch (E := Small B) ?_ fun e => ?_
    · exact Hoare.bind (hqs hc) fun v => Hoare.bind (hoare_readLine hx _) fun _ => Hoare.pure (Q := fun _ => Ready x L B) v
    · exact Hoare.bind (hoare_readLine hx (Ready x L B)) fun _ => hq (quiet_decorateRethrow x e)

omit hx in
theorem update_small {s t : Reader} {u : Unit} (hs : s.Small B) (h : Reader.update s = .ok u t) : t.Small B := by
  cases h; exact ⟨⟨hs.sized.next, hs.sized.cur, hs.sized.helper⟩, hs.next, hs.cur, hs.helper⟩

omit hx in
theorem parseRow_eof {s t : Parser} {u : Unit} (h : parseRow x s = .ok u t) : t.eof = s.eof := by
  have key : ∀ {s t : Parser} {u : Unit}, onRd (Reader.parse x) s = .ok u t → t.eof = s.eof := by
    intro s t u h
    unfold onRd at h
    cases hm : Reader.parse x s.rd with
    | ok b r => rw [hm] at h; cases h; rfl
    | exc e r => rw [hm] at h; cases h
    | ub => rw [hm] at h; cases h
    | nofuel => rw [hm] at h; cases h
  unfold parseRow at h
  cases hm : x.cfg.mode <;> rw [hm] at h
  · exact key h
  · exact key h
  · dsimp only at h
    unfold tryCatch at h
    cases h1 : onRd (Reader.parse x) s with
    | ok b s1 => rw [h1] at h; cases h; exact key h1
    | exc e s1 =>
      rw [h1] at h
      obtain ⟨_, s2, _, h⟩ := bind_ok_inv h
      cases h
    | ub => rw [h1] at h; cases h
    | nofuel => rw [h1] at h; cases h

/-- `get_next` -/
theorem hoare_getNext (rs : List Req) : Hoare (Ready x L B) (getNext x rs) (fun _ => Ready x L B) (Ready x L B) := by
  have hinv : Hoare (Small B) (handleErrorInvalidConversion x >>= fun _ => readLine x >>= fun _ => pure (Conv.defaults rs))
      (fun _ => Ready x L B) (Ready x L B) :=
    Hoare.bind (hqs (quiet_handleErrorInvalidConversion (Q := False) x) |>.mono (fun _ i => i) (fun _ _ i => i) (fun _ _ => trivial) |>.exOf (NoExc.modify _))
      fun _ => Hoare.bind (hoare_readLine hx _) fun _ => Hoare.pure (Q := fun _ => Ready x L B) _
  have hpre : Hoare (Ready x L B) (parseRowIf x) (fun _ s => Small B s ∧ (s.eof = true → Ready x L B s)) (Ready x L B) := by
    constructor
    · intro s hs u t h
      unfold parseRowIf at h
      by_cases he : s.eof = true
      · rw [if_pos he] at h; cases h; exact ⟨hs.1, fun _ => hs⟩
      · rw [if_neg he] at h
        exact ⟨(hoare_parseRow hx).ok _ hs _ _ h, fun e => absurd ((parseRow_eof h).symm.trans e) he⟩
    · intro s hs e t h
      unfold parseRowIf at h
      by_cases he : s.eof = true
      · rw [if_pos he] at h; cases h
      · rw [if_neg he] at h
        exact (hoare_parseRow hx).exc _ hs _ _ h
  have hupd : Hoare (fun s => Small B s ∧ (s.eof = true → Ready x L B s)) (onRd Reader.update)
      (fun _ s => Small B s ∧ (s.eof = true → Ready x L B s)) (Ready x L B) := by
    refine Hoare.exOf ⟨fun s hs u t h => ?_, fun _ _ _ _ _ => trivial⟩ (noexc_onRd (NoExc.modify _))
    cases h
    exact ⟨update_small hs.1 rfl, fun e => ⟨update_small hs.1 rfl, (hs.2 e).2⟩⟩
  unfold getNext
  refine Hoare.bind hpre fun _ => Hoare.bind hupd fun _ => Hoare.bind Hoare.get fun s => Hoare.ite (fun _ => hinv.pre fun s i => i.1.1) fun _ => ?_
  by_cases he : s.eof = true
  · simp only [he, if_true]
    refine Hoare.bind (Q := fun _ => Ready x L B) ((hq (quiet_clearError (Q := False) _)).pre fun t i => i.1.2 (by rw [← i.2]; exact he)) fun _ =>
      Hoare.bind (hq (quiet_handleError x.cfg _)) fun _ => Hoare.pure (Q := fun _ => Ready x L B) _
  · simp only [he]
    refine Hoare.bind (Q := fun _ => Small B) ?_ fun _ => hoare_convertRow hx rs
    exact ((hqs (quiet_clearError (Q := False) _)).mono (fun _ i => i) (fun _ _ i => i) fun _ _ => trivial).exOf (NoExc.modify _) |>.pre fun t i => i.1.1

theorem hoare_exec (op : Op) : Hoare (Ready x L B) (op.exec x) (fun _ => Ready x L B) (Ready x L B) := by
  have hp : ∀ {α : Type} (a : α), Hoare (Ready x L B) (pure a : M Parser α) (fun _ => Ready x L B) (Ready x L B) := fun a => Hoare.pure (Q := fun _ => Ready x L B) a
  have hg : ∀ {α : Type} {f : Parser → M Parser α}, (∀ s, Hoare (Ready x L B) (f s) (fun _ => Ready x L B) (Ready x L B)) →
      Hoare (Ready x L B) (M.get >>= f) (fun _ => Ready x L B) (Ready x L B) := fun h => Hoare.bind Hoare.get fun s => (h s).pre fun _ i => i.1
  cases op with
  | getNext rs => exact Hoare.bind (hoare_getNext hx rs) fun v => hg fun s => hp _
  | ignoreNext => exact Hoare.bind (hoare_ignoreNext hx _) fun b => hp _
  | header => exact Hoare.bind (hq (quiet_getHeader x)) fun b => hp _
  | rawHeader => exact hg fun s => hp _
  | fieldExists f => exact Hoare.bind (hq (quiet_fieldExists x f)) fun b => hp _
  | useFields fs =>
    refine Hoare.bind (Q := fun _ => Ready x L B) ?_ fun _ => hp _
    unfold useFields
    refine Hoare.bind (hq (quiet_clearError (Q := True) _)) fun _ => Hoare.bind (hq (quiet_splitHeaderDataIf x _)) fun _ => hg fun s =>
      Hoare.ite (fun _ => hp _) fun _ => Hoare.ite (fun _ => hq (quiet_error x.cfg _)) fun _ => Hoare.bind (hq (quiet_mapFields x fs fs)) fun r => ?_
    cases r with
    | none => exact hp _
    | some sel =>
      exact Hoare.bind (hq (quiet_setMapping (Q := True) sel)) fun _ => hg fun s => Hoare.ite (fun _ => Hoare.bind (hoare_ignoreNext hx _) fun _ => hp _)
        fun _ => hp _
  | chain a as =>
    refine hg fun s => Hoare.ite (fun _ => hp _) fun _ => Hoare.bind (Q := fun _ => Ready x L B) ?_ fun _ => hp _
    unfold tryChain
    refine Hoare.bind (Q := fun _ => Ready x L B) ?_ fun r => Hoare.bind (hq (quiet_orElses x as)) fun _ => hp _
    unfold tryNext
    exact Hoare.bind (hoare_getNext hx _) fun v => hg fun s => Hoare.ite (fun _ => Hoare.bind (hq (quiet_tryInvoke x v a.fn)) fun c => hg fun s => hp _)
      fun _ => hp _

theorem hoare_firstLine : Hoare (Small B) (firstLine x) (fun _ => Ready x L B) (Ready x L B) := by
  unfold firstLine
  refine Hoare.bind (hoare_readLine hx _) fun _ => Hoare.ite (fun _ => Hoare.bind (hoare_ignoreNext hx _) fun _ => Hoare.pure (Q := fun _ => Ready x L B) _) fun _ => ?_
  exact Hoare.bind (hq (quiet_onRd (Reader.still_getBuffer (Q := True)))) fun b => hq (qm (Q := True) fun _ => quiet_same rfl rfl)

theorem run_ready : ∀ (ops : List Op) {s s' : Parser} {os : List Obs}, Ready x L B s → run x ops s = some (os, s') → Ready x L B s'
  | [], s, s', os, hi, h => by cases h; exact hi
  | op :: ops, s, s', os, hi, h => by
    unfold run at h
    cases hs : step x op s with
    | none => rw [hs] at h; cases h
    | some p =>
      obtain ⟨o, s1⟩ := p
      rw [hs] at h
      dsimp only at h
      cases hr : run x ops s1 with
      | none => rw [hr] at h; cases h
      | some q =>
        obtain ⟨os1, s2⟩ := q
        rw [hr] at h
        cases h
        refine run_ready ops ?_ hr
        unfold step at hs
        cases hm : op.exec x s with
        | ok r t => rw [hm] at hs; cases hs; exact (hoare_exec hx op).ok _ hi _ _ hm
        | exc e t => rw [hm] at hs; cases hs; exact (hoare_exec hx op).exc _ hi _ _ hm
        | ub => rw [hm] at hs; cases hs
        | nofuel => rw [hm] at hs; cases hs

end
end Parser
end Ssp
