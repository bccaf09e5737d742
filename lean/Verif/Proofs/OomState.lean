import Verif.Proofs.Oom
import Verif.Proofs.MachineExec
import Verif.Proofs.LineMore
/-!
# The state of a parser for which memory ran out
-/
namespace Ssp

/-- Whatever the outcome (a value or `std::bad_alloc`), the states are related. -/
def FRel {σ α : Type} (R : σ → σ → Prop) (f : F σ α) : Prop := ∀ s h o s' h', f (s, h) = .ok o (s', h') → R s s'

namespace FRel
variable {σ α β : Type} {R : σ → σ → Prop}

theorem lift {m : M σ α} (h : ∀ s a s', m s = .ok a s' → R s s') : FRel R (F.lift m) := by
  intro s hp o s' h' he
  unfold F.lift at he
  simp only at he
  cases hm : m s with
  | ok a s1 => rw [hm] at he; cases he; exact h _ _ _ hm
  | exc e s1 => rw [hm] at he; cases he
  | ub => rw [hm] at he; cases he
  | nofuel => rw [hm] at he; cases he

theorem pure (hr : ∀ a, R a a) (a : α) : FRel R (Pure.pure a : F σ α) := by
  intro s h o s' h' he; cases he; exact hr _

theorem bind (ht : ∀ a b c, R a b → R b c → R a c) {f : F σ α} {g : α → F σ β} (h : FRel R f) (hg : ∀ a, FRel R (g a)) :
    FRel R (f >>= g) := by
  intro s hp o s' h' he
  cases hf : f (s, hp) with
  | ok a p =>
    obtain ⟨s1, h1⟩ := p
    cases a with
    | none => rw [F.bind_none hf] at he; cases he; exact h _ _ _ _ _ hf
    | some a => rw [F.bind_ok hf] at he; exact ht _ _ _ (h _ _ _ _ _ hf) (hg a _ _ _ _ _ he)
  | exc e p =>
    have : (f >>= g) (s, hp) = .exc e p := by
      show F.bind f g _ = _
      simp [F.bind, hf]
    rw [this] at he
    cases he
  | ub =>
    have : (f >>= g) (s, hp) = .ub := by
      show F.bind f g _ = _
      simp [F.bind, hf]
    rw [this] at he
    cases he
  | nofuel =>
    have : (f >>= g) (s, hp) = .nofuel := by
      show F.bind f g _ = _
      simp [F.bind, hf]
    rw [this] at he
    cases he

theorem ite {p : Prop} [Decidable p] {f g : F σ α} (h : p → FRel R f) (h' : ¬ p → FRel R g) : FRel R (if p then f else g) := by
  by_cases hp : p
  · rw [if_pos hp]; exact h hp
  · rw [if_neg hp]; exact h' hp

theorem get (hr : ∀ a, R a a) : FRel R (F.get : F σ σ) := lift fun s a s' h => by cases h; exact hr _

theorem request (hr : ∀ a, R a a) (w : Alloc) : FRel R (F.request w : F σ Bool) := by
  intro s h o s' h' he
  unfold F.request at he
  split at he <;> cases he <;> exact hr _

theorem badAlloc (hr : ∀ a, R a a) : FRel R (F.badAlloc : F σ α) := by
  intro s h o s' h' he; cases he; exact hr _

end FRel

namespace Io

/-- Nothing is read twice, and the recorded size of the buffer stays right. -/
structure Ahead (s s' : Io) : Prop where
  sized : s.n = s.mem.length → s'.n = s'.mem.length
  curr : s.curr ≤ s'.curr
  fpos : s.fpos ≤ s'.fpos

theorem Ahead.refl (s : Io) : Ahead s s := ⟨id, Nat.le_refl _, Nat.le_refl _⟩
theorem Ahead.trans {a b c : Io} (h : Ahead a b) (h' : Ahead b c) : Ahead a c :=
  ⟨fun e => h'.sized (h.sized e), Nat.le_trans h.curr h'.curr, Nat.le_trans h.fpos h'.fpos⟩

section
variable {α β : Type} {w : Alloc}

theorem ab {f : F Io α} {g : α → F Io β} (h : FRel Ahead f) (hg : ∀ a, FRel Ahead (g a)) : FRel Ahead (f >>= g) :=
  FRel.bind (R := Ahead) (fun _ _ _ => Ahead.trans) h hg

theorem ahead_realloc (env : Env) (size : Nat) : FRel Ahead (reallocF w env size) := by
  unfold reallocF
  refine ab (FRel.request Ahead.refl w) fun b => FRel.ite (fun _ => FRel.lift fun s a s' h => ?_) fun _ => FRel.badAlloc Ahead.refl
  cases h
  refine ⟨fun _ => ?_, Nat.le_refl _, Nat.le_refl _⟩
  simp only [List.length_append, List.length_take, List.length_map, List.length_range]
  omega

theorem ahead_reallocIf (env : Env) (p : Prop) [Decidable p] (size : Nat) : FRel Ahead (reallocIfF w env p size) :=
  FRel.ite (fun _ => ahead_realloc env size) fun _ => FRel.pure Ahead.refl _

theorem ahead_wr (p : Nat) (b : Byte) : FRel Ahead (F.lift (wr p b)) := FRel.lift fun s a s' h => by
  unfold wr at h
  split at h
  · cases h; exact ⟨fun e => by simpa using e, Nat.le_refl _, Nat.le_refl _⟩
  · cases h

theorem ahead_rdCsv (ptr : Option Bytes) (i : Nat) : FRel Ahead (F.lift (rdCsv ptr i)) := FRel.lift fun s a s' h => by
  unfold rdCsv at h
  split at h
  · cases h
  · split at h
    · cases h; exact Ahead.refl _
    · cases h

theorem ahead_bufLoop (env : Env) (ptr : Option Bytes) (size : Nat) : ∀ f used, FRel Ahead (bufLoopF w env ptr size f used)
  | 0, _ => FRel.lift fun _ _ _ h => by cases h
  | f + 1, used => by
    unfold bufLoopF
    refine ab (FRel.get Ahead.refl) fun s => FRel.ite (fun _ => ?_) fun _ => ab (ahead_wr _ _) fun _ => FRel.pure Ahead.refl _
    refine ab (ahead_reallocIf _ _ _) fun _ => ab (ahead_rdCsv _ _) fun c => ab (FRel.lift fun s a s' h => ?_) fun _ =>
      ab (ahead_wr _ _) fun _ => FRel.ite (fun _ => ab (ahead_wr _ _) fun _ => FRel.pure Ahead.refl _) fun _ => ahead_bufLoop env ptr size f _
    cases h
    exact ⟨id, Nat.le_succ _, Nat.le_refl _⟩

theorem ahead_getLineBuffer (env : Env) (ptr : Option Bytes) (size : Nat) : FRel Ahead (getLineBufferF w env ptr size) := by
  unfold getLineBufferF
  exact ab (FRel.get Ahead.refl) fun s => FRel.ite (fun _ => FRel.pure Ahead.refl _) fun _ =>
    ab (ahead_reallocIf _ _ _) fun _ => ab (ahead_bufLoop _ _ _ _ _) fun _ => FRel.pure Ahead.refl _

theorem ahead_fgets (data : Bytes) : FRel Ahead (F.lift (fgets data)) := FRel.lift fun s a s' h => by
  unfold fgets at h
  simp only [M.get_bind] at h
  split at h
  · cases h; exact Ahead.refl _
  · cases h; exact ⟨id, Nat.le_refl _, Nat.le_add_right _ _⟩

theorem ahead_copyTo (p : Nat) (b : Bytes) : FRel Ahead (F.lift (copyTo p b)) := FRel.lift fun s a s' h => by
  unfold copyTo at h
  split at h
  · cases h
    refine ⟨fun e => ?_, Nat.le_refl _, Nat.le_refl _⟩
    simp only [List.length_append, List.length_take, List.length_drop]
    omega
  · cases h

theorem ahead_fgetsLoop (env : Env) (data : Bytes) : ∀ f used, FRel Ahead (fgetsLoopF w env data f used)
  | 0, _ => FRel.lift fun _ _ _ h => by cases h
  | f + 1, used => by
    unfold fgetsLoopF
    refine ab (ahead_fgets data) fun r => ?_
    cases r with
    | none => exact FRel.pure Ahead.refl _
    | some buff =>
      refine ab (FRel.lift fun s a s' h => ?_) fun lineUsed => ?_
      · unfold strlenLine at h
        split at h
        · cases h; exact Ahead.refl _
        · cases h
      · cases strlen buff with
        | none => exact FRel.lift fun _ _ _ h => by cases h
        | some k =>
          refine ab (FRel.get Ahead.refl) fun s => ab (ahead_reallocIf _ _ _) fun _ => ab (ahead_copyTo _ _) fun _ => ab (ahead_wr _ _) fun _ =>
            FRel.ite (fun _ => FRel.lift fun _ _ _ h => by cases h) fun _ => ab (FRel.lift fun s a s' h => ?_) fun b =>
            FRel.ite (fun _ => FRel.pure Ahead.refl _) fun _ => ahead_fgetsLoop env data f _
          unfold rd at h
          split at h
          · cases h; exact Ahead.refl _
          · cases h

theorem ahead_getlinePortable (env : Env) (data : Bytes) : FRel Ahead (getlinePortableF w env data) := by
  unfold getlinePortableF
  exact ab (FRel.get Ahead.refl) fun s => ab (ahead_reallocIf _ _ _) fun _ => ab (ahead_wr _ _) fun _ => ahead_fgetsLoop _ _ _ _

theorem realloc_sized (env : Env) (size : Nat) (s : Io) : ∀ s' u, realloc env size s = .ok u s' → s'.n = size ∧ s'.mem.length = size ∧
    s'.curr = s.curr ∧ s'.fpos = s.fpos := by
  intro s' u h
  cases h
  refine ⟨rfl, ?_, rfl, rfl⟩
  simp only [List.length_append, List.length_take, List.length_map, List.length_range]
  omega

theorem ahead_posix (env : Env) (data : Bytes) {s s' : Io} {r : Option Nat} (h : getlinePosix env data s = .ok r s') : Ahead s s' := by
  unfold getlinePosix at h
  simp only [M.get_bind] at h
  split at h
  · by_cases hm : s.mem = []
    · rw [M.bind_of_ok (reallocIf_pos hm)] at h
      cases h
      obtain ⟨h1, h2, h3, h4⟩ := realloc_sized env (env.grow s.tick) s _ _ rfl
      exact ⟨fun _ => h1.trans h2.symm, Nat.le_of_eq h3.symm, Nat.le_of_eq h4.symm⟩
    · rw [M.bind_of_ok (reallocIf_neg hm)] at h
      cases h
      exact Ahead.refl _
  · by_cases hm : s.mem = [] ∨ s.n < (upToLF (data.drop s.fpos)).length + 1
    · rw [M.bind_of_ok (reallocIf_pos hm)] at h
      obtain ⟨h1, h2, h3, h4⟩ := realloc_sized env ((upToLF (data.drop s.fpos)).length + 1 + env.grow s.tick) s _ _ rfl
      cases h
      refine ⟨fun _ => ?_, Nat.le_of_eq h3.symm, Nat.le_add_right _ _⟩
      refine h1.trans ?_
      have hl : ∀ (L M : Bytes) (g : Nat), M.length = L.length + 1 + g → L.length + 1 + g = (L ++ 0 :: M.drop (L.length + 1)).length := by
        intro L M g h
        simp only [List.length_append, List.length_cons, List.length_drop]
        omega
      exact hl _ _ _ h2
    · rw [M.bind_of_ok (reallocIf_neg hm)] at h
      cases h
      refine ⟨fun e => ?_, Nat.le_refl _, Nat.le_add_right _ _⟩
      simp only [List.length_append, List.length_cons, List.length_drop]
      omega

theorem ahead_getlinePosix (env : Env) (data : Bytes) : FRel Ahead (getlinePosixF w env data) := by
  intro s h o s' h' he
  rcases getlinePosixF_cases w env data s h with ⟨h1, _, r, s1, e1, e2⟩ | ⟨h1, s1, _, e2, l, n, c, _, _, f, _⟩
  · rw [e2] at he
    cases he
    exact ahead_posix env data e1
  · rw [e2] at he
    cases he
    exact ⟨fun e => by rw [n, l]; exact e, Nat.le_of_eq c.symm, f⟩

end

/-- the same for `get_line`, which sets `curr_char` back at the end of a file -/
structure Further (src : Src) (s s' : Io) : Prop where
  sized : s.n = s.mem.length → s'.n = s'.mem.length
  curr : src.isBuf → s.curr ≤ s'.curr
  fpos : s.fpos ≤ s'.fpos

theorem Further.refl {src : Src} (s : Io) : Further src s s := ⟨id, fun _ => Nat.le_refl _, Nat.le_refl _⟩
theorem Further.trans {src : Src} {a b c : Io} (h : Further src a b) (h' : Further src b c) : Further src a c :=
  ⟨fun e => h'.sized (h.sized e), fun e => Nat.le_trans (h.curr e) (h'.curr e), Nat.le_trans h.fpos h'.fpos⟩

theorem Ahead.further {src : Src} {s s' : Io} (h : Ahead s s') : Further src s s' := ⟨h.sized, fun _ => h.curr, h.fpos⟩

theorem further_getLine (w : Alloc) (env : Env) (src : Src) : FRel (Further src) (getLineF w env src) := by
  have hr : ∀ r, FRel (Further src) (lineOrBadAlloc r) := by
    intro r
    cases r with
    | some k => exact FRel.pure Further.refl _
    | none =>
      refine FRel.bind (R := Further src) (fun _ _ _ => Further.trans) (f := F.errnoIsEnomem) ?_ fun b =>
        FRel.ite (fun _ => FRel.badAlloc Further.refl) fun _ => FRel.pure Further.refl _
      intro s h o s' h' he
      cases he
      exact Further.refl _
  have hw : ∀ {f : F Io (Option Nat)}, FRel Ahead f → FRel (Further src) f := fun h s hp o s' h' he => (h s hp o s' h' he).further
  cases src with
  | buf p n => exact FRel.bind (R := Further (.buf p n)) (fun _ _ _ => Further.trans) (hw (ahead_getLineBuffer env p n)) hr
  | file u d =>
    have hf : FRel Ahead (getLineFileF w u env d) := by
      unfold getLineFileF
      cases u
      · exact ahead_getlinePortable env d
      · exact ahead_getlinePosix env d
    refine FRel.bind (R := Further (.file u d)) (fun _ _ _ => Further.trans) (hw hf) fun r => ?_
    refine FRel.bind (R := Further (.file u d)) (fun _ _ _ => Further.trans) (FRel.lift fun s a s' h => ?_) fun _ => hr r
    cases h
    exact ⟨id, fun h => h.elim, Nat.le_refl _⟩

end Io

namespace Reader

/-- What does not change while a line is read ahead, whatever happens. -/
structure Kin (x : Ctx) (s s' : Reader) : Prop where
  cur : s'.cur = s.cur
  sel : s'.next.conv.mappings = s.next.conv.mappings
  ncols : s'.next.conv.ncols = s.next.conv.ncols
  resplitting : s'.next.conv.spl.resplitting = s.next.conv.spl.resplitting
  quote : s'.next.conv.spl.unterminatedQuote = s.next.conv.spl.unterminatedQuote
  helper : s'.helper = s.helper
  helperSize : s'.helperSize = s.helperSize
  sized : s.next.size = s.next.conv.spl.mem.length → s'.next.size = s'.next.conv.spl.mem.length
  curr : x.src.isBuf → s.curr ≤ s'.curr
  fpos : s.fpos ≤ s'.fpos

theorem Kin.refl {x : Ctx} (s : Reader) : Kin x s s := ⟨rfl, rfl, rfl, rfl, rfl, rfl, rfl, id, fun _ => Nat.le_refl _, Nat.le_refl _⟩
theorem Kin.trans {x : Ctx} {a b c : Reader} (h : Kin x a b) (h' : Kin x b c) : Kin x a c :=
  ⟨h'.cur.trans h.cur, h'.sel.trans h.sel, h'.ncols.trans h.ncols, h'.resplitting.trans h.resplitting, h'.quote.trans h.quote,
    h'.helper.trans h.helper, h'.helperSize.trans h.helperSize, fun e => h'.sized (h.sized e),
    fun e => Nat.le_trans (h.curr e) (h'.curr e), Nat.le_trans h.fpos h'.fpos⟩

section
variable {α β : Type} {w : Alloc} {x : Ctx}

theorem kb {f : F Reader α} {g : α → F Reader β} (h : FRel (Kin x) f) (hg : ∀ a, FRel (Kin x) (g a)) : FRel (Kin x) (f >>= g) :=
  FRel.bind (R := Kin x) (fun _ _ _ => Kin.trans) h hg

theorem kin_getLineNext : FRel (Kin x) (getLineNextF w x) := by
  intro s h o s' h' he
  unfold getLineNextF F.zoom at he
  simp only at he
  cases hg : Io.getLineF w x.env x.src (s.ioNext, h) with
  | ok r q =>
    rw [hg] at he
    obtain ⟨io, h1⟩ := q
    cases he
    have := Io.further_getLine w x.env x.src _ _ _ _ _ hg
    exact ⟨rfl, rfl, rfl, rfl, rfl, rfl, rfl, this.sized, this.curr, this.fpos⟩
  | exc e q => rw [hg] at he; cases he
  | ub => rw [hg] at he; cases he
  | nofuel => rw [hg] at he; cases he

theorem kin_wrNext (p : Nat) (b : Byte) : ∀ (s : Reader) (u : Unit) (s' : Reader), wrNext p b s = .ok u s' → Kin x s s' := by
  intro s u s' h
  unfold wrNext at h
  split at h
  · cases h
    exact ⟨rfl, rfl, rfl, rfl, rfl, rfl, rfl, fun e => by simpa using e, fun _ => Nat.le_refl _, Nat.le_refl _⟩
  · cases h

theorem kin_removeEolNext (k : Nat) : ∀ (s : Reader) (n : Nat) (s' : Reader), removeEolNext k s = .ok n s' → Kin x s s' := by
  intro s n s' h
  unfold removeEolNext at h
  simp only [M.get_bind] at h
  cases he : eolSize s.next.conv.spl.mem k with
  | none => rw [he] at h; cases h
  | some p =>
    obtain ⟨size, crlf⟩ := p
    rw [he] at h
    simp only [M.modify_bind] at h
    have hk : Kin x s { s with crlf := crlf } := ⟨rfl, rfl, rfl, rfl, rfl, rfl, rfl, id, fun _ => Nat.le_refl _, Nat.le_refl _⟩
    split at h
    · cases h; exact hk
    · obtain ⟨u, s1, h1, h2⟩ := bind_ok_inv h
      cases h2
      exact hk.trans (kin_wrNext _ _ _ _ _ h1)

theorem kin_readNextLoop : ∀ f, FRel (Kin x) (readNextLoopF w x f)
  | 0 => FRel.lift fun _ _ _ h => by cases h
  | f + 1 => by
    unfold readNextLoopF
    refine kb (FRel.lift fun s a s' h => ?_) fun _ => kb (FRel.get Kin.refl) fun s => kb (FRel.lift fun s1 a s' h => ?_) fun _ =>
      kb (FRel.lift fun s a s' h => ?_) fun _ => kb kin_getLineNext fun r => ?_
    · cases h; exact ⟨rfl, rfl, rfl, rfl, rfl, rfl, rfl, id, fun _ => Nat.le_refl _, Nat.le_refl _⟩
    · by_cases hs : s.next.size > 0
      · rw [if_pos hs] at h; exact kin_wrNext _ _ _ _ _ h
      · rw [if_neg hs] at h; cases h; exact Kin.refl _
    · cases h; exact ⟨rfl, rfl, rfl, rfl, rfl, rfl, rfl, id, fun _ => Nat.le_refl _, Nat.le_refl _⟩
    · cases r with
      | none => exact FRel.pure Kin.refl _
      | some k =>
        refine kb (FRel.lift (kin_removeEolNext k)) fun size => FRel.ite (fun _ => kin_readNextLoop f) fun _ => kb (FRel.lift fun s a s' h => ?_) fun _ =>
          FRel.pure Kin.refl _
        cases h; exact ⟨rfl, rfl, rfl, rfl, rfl, rfl, rfl, id, fun _ => Nat.le_refl _, Nat.le_refl _⟩

theorem kin_readNext : FRel (Kin x) (readNextF w x) := by
  unfold readNextF
  refine kb (FRel.lift fun s a s' h => ?_) fun _ => kin_readNextLoop _
  cases h; exact ⟨rfl, rfl, rfl, rfl, rfl, rfl, rfl, id, fun _ => Nat.le_refl _, Nat.le_refl _⟩

end

theorem Kin.unread {x : Ctx} {s s' : Reader} (h : Kin x s s') : ∃ k, x.src.unread s'.curr s'.fpos = (x.src.unread s.curr s.fpos).drop k := by
  have hd : ∀ {d : Bytes} {a b : Nat}, a ≤ b → d.drop b = (d.drop a).drop (b - a) := by
    intro d a b hab
    rw [List.drop_drop, Nat.add_sub_cancel' hab]
  have hc := h.curr
  cases hx : x.src with
  | file u d => exact ⟨_, hd h.fpos⟩
  | buf p n => rw [hx] at hc; exact ⟨_, hd (hc trivial)⟩

/-- the machine that goes on where the reader is -/
theorem Kin.base {x : Ctx} {s s' : Reader} {a : MRd} (h : Kin x s s') (hr : RBase x s a) : ∃ a', RBase x s' a' ∧ (a.todo = [] → a'.todo = []) := by
  refine ⟨{ cur := a.cur, next := { err := s'.next.conv.err, serr := s'.next.conv.spl.err, cols := none }, sel := a.sel, ncols := a.ncols,
            look := [], crlf := false, todo := rawLines (x.src.unread s'.curr s'.fpos), tries := 0, ln := s'.lineNumber, off := s'.curr,
            pos := s'.charsRead }, ?_, ?_⟩
  · exact {
      cur := by rw [h.cur]; exact hr.cur
      next := ⟨rfl, rfl, h.sel.trans hr.next.sel, h.ncols.trans hr.next.ncols, h.sized hr.next.sized, by intro cs h; cases h⟩
      selok := hr.selok
      helper := by rw [h.helper, h.helperSize]; exact hr.helper
      todo := rfl
      ln := rfl
      done := by intro h; cases h
      curr := rfl
      chars := rfl }
  · intro ht
    obtain ⟨k, hk⟩ := h.unread
    show rawLines _ = []
    have hu : x.src.unread s.curr s.fpos = [] := by
      rw [hr.todo] at ht
      have := rawLines_flatten (x.src.unread s.curr s.fpos)
      rw [ht] at this
      exact this.symm
    rw [hk, hu]
    simp [rawLines]

end Reader

end Ssp
