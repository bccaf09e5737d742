import Verif.Model.Parser
import Verif.Proofs.NoExc
/-!
# What splitting and converting leaves alone: the size of the line buffer
-/
namespace Ssp

/-- between the object before and the object after the operation, `R` holds; it throws only if `Q` -/
structure Relates {σ α : Type} (Q : Prop) (R : σ → σ → Prop) (m : M σ α) : Prop where
  ok : ∀ s a s', m s = .ok a s' → R s s'
  exc : ∀ s e s', m s = .exc e s' → R s s'
  thr : ∀ s e s', m s = .exc e s' → Q

namespace Relates
variable {σ α β : Type} {Q : Prop} {R : σ → σ → Prop}

theorem bind (ht : ∀ a b c, R a b → R b c → R a c) {m : M σ α} {f : α → M σ β} (h : Relates Q R m) (hf : ∀ a, Relates Q R (f a)) :
    Relates Q R (m >>= f) := by
  constructor
  · intro s b s' hb
    rw [M.bind_apply] at hb
    cases hm : m s with
    | ok a s1 => rw [hm] at hb; exact ht _ _ _ (h.ok _ _ _ hm) ((hf a).ok _ _ _ hb)
    | exc e1 s1 => rw [hm] at hb; cases hb
    | ub => rw [hm] at hb; cases hb
    | nofuel => rw [hm] at hb; cases hb
  · intro s e s' hb
    rw [M.bind_apply] at hb
    cases hm : m s with
    | ok a s1 => rw [hm] at hb; exact ht _ _ _ (h.ok _ _ _ hm) ((hf a).exc _ _ _ hb)
    | exc e1 s1 => rw [hm] at hb; cases hb; exact h.exc _ _ _ hm
    | ub => rw [hm] at hb; cases hb
    | nofuel => rw [hm] at hb; cases hb
  · intro s e s' hb
    rw [M.bind_apply] at hb
    cases hm : m s with
    | ok a s1 => rw [hm] at hb; exact (hf a).thr _ _ _ hb
    | exc e1 s1 => rw [hm] at hb; cases hb; exact h.thr _ _ _ hm
    | ub => rw [hm] at hb; cases hb
    | nofuel => rw [hm] at hb; cases hb

theorem pure (hr : ∀ a, R a a) (a : α) : Relates Q R (Pure.pure a : M σ α) :=
  ⟨fun s _ _ h => (by cases h; exact hr s), fun _ _ _ h => (by cases h), fun _ _ _ h => (by cases h)⟩
theorem get (hr : ∀ a, R a a) : Relates Q R (M.get : M σ σ) := ⟨fun s _ _ h => (by cases h; exact hr s), fun _ _ _ h => (by cases h), fun _ _ _ h => (by cases h)⟩
theorem modify {f : σ → σ} (hf : ∀ s, R s (f s)) : Relates Q R (M.modify f) :=
  ⟨fun s _ _ h => (by cases h; exact hf s), fun _ _ _ h => (by cases h), fun _ _ _ h => (by cases h)⟩
theorem throw (hq : Q) (hr : ∀ a, R a a) (e : Bytes) : Relates Q R (M.throw e : M σ α) :=
  ⟨fun _ _ _ h => (by cases h), fun s _ _ h => (by cases h; exact hr s), fun _ _ _ _ => hq⟩
theorem ub : Relates Q R (M.ub : M σ α) := ⟨fun _ _ _ h => (by cases h), fun _ _ _ h => (by cases h), fun _ _ _ h => (by cases h)⟩
theorem nofuel : Relates Q R (M.nofuel : M σ α) := ⟨fun _ _ _ h => (by cases h), fun _ _ _ h => (by cases h), fun _ _ _ h => (by cases h)⟩

theorem quiet {m : M σ α} (h : ∀ s a s', m s = .ok a s' → R s s') (hn : ∀ s e s', m s ≠ .exc e s') : Relates Q R m :=
  ⟨h, fun s e s' he => absurd he (hn s e s'), fun s e s' he => absurd he (hn s e s')⟩

theorem ite {p : Prop} [Decidable p] {m m' : M σ α} (h : Relates Q R m) (h' : Relates Q R m') : Relates Q R (if p then m else m') := by
  split
  · exact h
  · exact h'

theorem noexc {m : M σ α} (h : Relates Q R m) (hq : ¬ Q) : NoExc m := ⟨fun s e s' he => hq (h.thr s e s' he)⟩

end Relates

namespace Spl

/-- the block of the line is the same, only its contents may differ -/
def SameBlock (s t : Spl) : Prop := t.mem.length = s.mem.length ∧ t.gen = s.gen

theorem SameBlock.refl (s : Spl) : SameBlock s s := ⟨rfl, rfl⟩
theorem SameBlock.trans {a b c : Spl} (h : SameBlock a b) (h' : SameBlock b c) : SameBlock a c :=
  ⟨h'.1.trans h.1, h'.2.trans h.2⟩

abbrev Keeping {α : Type} (Q : Prop) (m : M Spl α) : Prop := Relates Q SameBlock m
variable {Q : Prop}

theorem kb {α β : Type} {m : M Spl α} {f : α → M Spl β} (h : Keeping Q m) (hf : ∀ a, Keeping Q (f a)) : Keeping Q (m >>= f) :=
  Relates.bind (R := SameBlock) (fun _ _ _ => SameBlock.trans) h hf
theorem kp {α : Type} (a : α) : Keeping Q (Pure.pure a : M Spl α) := Relates.pure SameBlock.refl a
theorem kg : Keeping Q (M.get : M Spl Spl) := Relates.get SameBlock.refl
theorem km {f : Spl → Spl} (hf : ∀ s, SameBlock s (f s)) : Keeping Q (M.modify f) := Relates.modify hf
theorem kunit {α : Type} {m : M Spl α} {f : Spl → Spl} (h : Keeping Q m) (hf : ∀ s, SameBlock s (f s)) :
    Keeping Q (M.modify f >>= fun _ => m) := kb (km hf) fun _ => h

theorem keep_rd (p : Nat) : Keeping Q (rd p) := by
  constructor <;> intro s a s' h <;> unfold rd at h <;> cases hg : s.mem[p]? <;> rw [hg] at h <;> cases h
  exact SameBlock.refl _

theorem keep_handleError (c : Cfg) (m : Bytes) : Keeping (c.mode = .throw) (handleError c m) := by
  unfold handleError
  cases hc : c.mode
  · exact km fun _ => ⟨rfl, rfl⟩
  · exact km fun _ => ⟨rfl, rfl⟩
  · exact Relates.throw rfl SameBlock.refl _

theorem keep_strncmpEq : ∀ (d : Bytes) (p : Nat), Keeping Q (strncmpEq p d)
  | [], _ => kp _
  | d :: ds, p => kb (keep_rd p) fun b => Relates.ite (kp _) (Relates.ite (kp _) (keep_strncmpEq ds (p + 1)))

theorem keep_matchDelim (p : Nat) (d : Delim) : Keeping Q (matchDelim p d) := by
  cases d with
  | chr b => exact kb (keep_rd p) fun _ => kp _
  | str d => exact keep_strncmpEq d p

theorem keep_skipWhile (set : List Byte) : ∀ f p, Keeping Q (skipWhile set f p)
  | 0, _ => Relates.nofuel
  | f + 1, p => kb (keep_rd p) fun _ => Relates.ite (keep_skipWhile set f (p + 1)) (kp _)

theorem keep_trimIfEnabled (set : List Byte) (p : Nat) : Keeping Q (trimIfEnabled set p) := by
  constructor <;> intro s a s' h <;> unfold trimIfEnabled at h <;> by_cases hs : set = []
  · rw [if_pos hs] at h; cases h; exact SameBlock.refl _
  · rw [if_neg hs] at h; exact (keep_skipWhile (Q := Q) set _ _).ok _ _ _ h
  · rw [if_pos hs] at h; cases h
  · rw [if_neg hs] at h; exact (keep_skipWhile (Q := Q) set _ _).exc _ _ _ h
  · rw [if_pos hs] at h; cases h
  · rw [if_neg hs] at h; exact (keep_skipWhile (Q := Q) set _ _).thr _ _ _ h

theorem keep_shiftAndSetCurrent : Keeping Q shiftAndSetCurrent := by
  refine Relates.quiet ?_ ?_
  · intro s a s' h
    unfold shiftAndSetCurrent at h
    by_cases h1 : s.escaped > 0
    · rw [if_pos h1] at h
      dsimp only at h
      by_cases h2 : s.curr + s.escaped + (s.end_ - s.curr - s.escaped) ≤ s.mem.length ∧ s.escaped ≤ s.end_
      · rw [if_pos h2] at h
        cases h
        refine ⟨?_, rfl⟩
        simp only [List.length_append, List.length_take, List.length_drop]
        omega
      · rw [if_neg h2] at h; cases h
    · rw [if_neg h1] at h; cases h; exact ⟨rfl, rfl⟩
  · intro s a s' h
    unfold shiftAndSetCurrent at h
    by_cases h1 : s.escaped > 0
    · rw [if_pos h1] at h
      dsimp only at h
      by_cases h2 : s.curr + s.escaped + (s.end_ - s.curr - s.escaped) ≤ s.mem.length ∧ s.escaped ≤ s.end_
      · rw [if_pos h2] at h; cases h
      · rw [if_neg h2] at h; cases h
    · rw [if_neg h1] at h; cases h

theorem keep_shiftAndJumpEscape (c : Cfg) : Keeping (c.mode = .throw) (shiftAndJumpEscape c) :=
  kb keep_shiftAndSetCurrent fun _ => km fun _ => ⟨rfl, rfl⟩

theorem keep_shiftIfEscaped (c : Cfg) (p : Nat) : Keeping (c.mode = .throw) (shiftIfEscaped c p) := by
  unfold shiftIfEscaped
  refine Relates.ite (kp _) (kb (keep_rd p) fun b => Relates.ite (kb (keep_rd _) fun n => Relates.ite ?_ (keep_shiftAndJumpEscape c)) (kp _))
  dsimp only
  exact Relates.ite (kb (keep_handleError c _) fun _ => km fun _ => ⟨rfl, rfl⟩) (km fun _ => ⟨rfl, rfl⟩)

theorem keep_matchDelimiter (c : Cfg) (d : Delim) (b : Nat) : Keeping (c.mode = .throw) (matchDelimiter c d b) := by
  unfold matchDelimiter
  refine kb (keep_trimIfEnabled _ _) fun e => kb (keep_rd e) fun b => Relates.ite (kp _) (kb (keep_matchDelim e d) fun m =>
    Relates.ite (kb (keep_shiftIfEscaped c e) fun _ => kp _) (kb (keep_trimIfEnabled _ _) fun _ => kp _))

theorem keep_shiftAndPush : Keeping Q shiftAndPush := kb keep_shiftAndSetCurrent fun _ => km fun _ => ⟨rfl, rfl⟩

theorem keep_shiftPushAndStartNext (n : Nat) : Keeping Q (shiftPushAndStartNext n) :=
  kb keep_shiftAndPush fun _ => km fun _ => ⟨rfl, rfl⟩

theorem keep_readNormal (c : Cfg) (d : Delim) : ∀ f, Keeping (c.mode = .throw) (readNormal c d f)
  | 0 => Relates.nofuel
  | f + 1 => by
    unfold readNormal
    refine kb kg fun s => kb (keep_matchDelimiter c d s.end_) fun wv => ?_
    obtain ⟨w, v⟩ := wv
    refine Relates.ite (Relates.ite (kb keep_shiftAndPush fun _ => km fun _ => ⟨rfl, rfl⟩) ?_) (keep_shiftPushAndStartNext w)
    exact kb (km fun _ => ⟨rfl, rfl⟩) fun _ => keep_readNormal c d f

theorem keep_readQuoted (c : Cfg) (q : Byte) (d : Delim) : ∀ f, Keeping (c.mode = .throw) (readQuoted c q d f)
  | 0 => Relates.nofuel
  | f + 1 => by
    unfold readQuoted
    refine kb kg fun s => kb (keep_rd _) fun b => Relates.ite (Relates.ite ?_ (Relates.ite ?_ ?_)) ?_
    · refine kb (keep_rd _) fun n => Relates.ite ?_ ?_
      · dsimp only
        exact Relates.ite (kb (keep_handleError c _) fun _ => km fun _ => ⟨rfl, rfl⟩) (km fun _ => ⟨rfl, rfl⟩)
      · exact kb (keep_shiftAndJumpEscape c) fun _ => kb (km fun _ => ⟨rfl, rfl⟩) fun _ => keep_readQuoted c q d f
    · refine kb keep_shiftAndSetCurrent fun _ => kb (km fun _ => ⟨rfl, rfl⟩) fun _ => ?_
      dsimp only
      exact Relates.ite (kb (keep_handleError c _) fun _ => km fun _ => ⟨rfl, rfl⟩) (km fun _ => ⟨rfl, rfl⟩)
    · exact kb (km fun _ => ⟨rfl, rfl⟩) fun _ => keep_readQuoted c q d f
    · refine kb (keep_matchDelimiter c d _) fun wv => ?_
      obtain ⟨w, v⟩ := wv
      refine Relates.ite (keep_shiftPushAndStartNext _) (kb kg fun s => kb (keep_rd _) fun b1 => Relates.ite ?_ ?_)
      · exact kb (keep_shiftAndJumpEscape c) fun _ => kb (km fun _ => ⟨rfl, rfl⟩) fun _ => keep_readQuoted c q d f
      · dsimp only
        exact Relates.ite (kb keep_shiftAndPush fun _ => km fun _ => ⟨rfl, rfl⟩)
          (kb (keep_handleError c _) fun _ => kb (km fun _ => ⟨rfl, rfl⟩) fun _ => km fun _ => ⟨rfl, rfl⟩)

theorem keep_read (c : Cfg) (d : Delim) : Keeping (c.mode = .throw) (read c d) := by
  unfold read
  refine kb (km fun _ => ⟨rfl, rfl⟩) fun _ => kb kg fun s => ?_
  cases c.quote with
  | none => exact kb (km fun _ => ⟨rfl, rfl⟩) fun _ => keep_readNormal c d _
  | some q =>
    refine Relates.ite (kb (km fun _ => ⟨rfl, rfl⟩) fun _ => keep_readQuoted c q d _) (kb (keep_rd _) fun b => Relates.ite ?_ ?_)
    · exact kb (km fun _ => ⟨rfl, rfl⟩) fun _ => keep_readQuoted c q d _
    · exact kb (km fun _ => ⟨rfl, rfl⟩) fun _ => keep_readNormal c d _

theorem keep_readLoop (c : Cfg) (d : Delim) : ∀ f, Keeping (c.mode = .throw) (readLoop c d f)
  | 0 => Relates.nofuel
  | f + 1 => kb kg fun _ => Relates.ite (kp _) (kb (keep_read c d) fun _ => keep_readLoop c d f)

theorem keep_splitImpl (c : Cfg) (d : Delim) : Keeping (c.mode = .throw) (splitImpl c d) :=
  kb kg fun _ => kb (keep_trimIfEnabled _ _) fun _ => kb (km fun _ => ⟨rfl, rfl⟩) fun _ => keep_readLoop c d _

theorem keep_splitImplSelectDelim (c : Cfg) (delim : Bytes) : Keeping (c.mode = .throw) (splitImplSelectDelim c delim) := by
  unfold splitImplSelectDelim
  refine kb (km fun _ => ⟨rfl, rfl⟩) fun _ => ?_
  match delim with
  | [] => exact keep_handleError c _
  | [b] => exact keep_splitImpl c _
  | a :: b :: r => exact keep_splitImpl c _

theorem keep_split (c : Cfg) (delim : Bytes) : Keeping (c.mode = .throw) (split c delim) :=
  kb (km fun _ => ⟨rfl, rfl⟩) fun _ => keep_splitImplSelectDelim c delim

theorem keep_resplit (c : Cfg) (n : Nat) (delim : Bytes) : Keeping (c.mode = .throw) (resplit c n delim) := by
  unfold resplit
  refine kb kg fun s => Relates.ite (keep_handleError c _) ?_
  cases s.data.getLast? with
  | none => exact Relates.ub
  | some p =>
    obtain ⟨a, b⟩ := p
    exact Relates.ite (keep_handleError c _) (kb (km fun _ => ⟨rfl, rfl⟩) fun _ => keep_splitImplSelectDelim c delim)

end Spl

namespace Conv

/-- the block of the line is the same -/
def SameBlock (s t : Conv) : Prop := s.spl.SameBlock t.spl

theorem SameBlock.refl (s : Conv) : SameBlock s s := Spl.SameBlock.refl _
theorem SameBlock.trans {a b c : Conv} (h : SameBlock a b) (h' : SameBlock b c) : SameBlock a c := Spl.SameBlock.trans h h'

abbrev Keeping {α : Type} (Q : Prop) (m : M Conv α) : Prop := Relates Q SameBlock m
variable {Q : Prop}

theorem kb {α β : Type} {m : M Conv α} {f : α → M Conv β} (h : Keeping Q m) (hf : ∀ a, Keeping Q (f a)) : Keeping Q (m >>= f) :=
  Relates.bind (R := SameBlock) (fun _ _ _ => SameBlock.trans) h hf
theorem kp {α : Type} (a : α) : Keeping Q (Pure.pure a : M Conv α) := Relates.pure SameBlock.refl a
theorem kg : Keeping Q (M.get : M Conv Conv) := Relates.get SameBlock.refl
theorem km {f : Conv → Conv} (hf : ∀ s, SameBlock s (f s)) : Keeping Q (M.modify f) := Relates.modify hf

theorem keep_onSpl {α : Type} {m : M Spl α} (h : Spl.Keeping Q m) : Keeping Q (onSpl m) := by
  constructor
  · intro s a s' hs
    unfold onSpl at hs
    cases hm : m s.spl with
    | ok b sp => rw [hm] at hs; cases hs; exact h.ok _ _ _ hm
    | exc e sp => rw [hm] at hs; cases hs
    | ub => rw [hm] at hs; cases hs
    | nofuel => rw [hm] at hs; cases hs
  · intro s a s' hs
    unfold onSpl at hs
    cases hm : m s.spl with
    | ok b sp => rw [hm] at hs; cases hs
    | exc e sp => rw [hm] at hs; cases hs; exact h.exc _ _ _ hm
    | ub => rw [hm] at hs; cases hs
    | nofuel => rw [hm] at hs; cases hs
  · intro s a s' hs
    unfold onSpl at hs
    cases hm : m s.spl with
    | ok b sp => rw [hm] at hs; cases hs
    | exc e sp => exact h.thr _ _ _ hm
    | ub => rw [hm] at hs; cases hs
    | nofuel => rw [hm] at hs; cases hs

theorem keep_handleError (c : Cfg) (m : Bytes) : Keeping (c.mode = .throw) (handleError c m) := by
  unfold handleError
  cases hc : c.mode
  · exact km fun _ => ⟨rfl, rfl⟩
  · exact km fun _ => ⟨rfl, rfl⟩
  · exact Relates.throw rfl SameBlock.refl _

theorem keep_handleErrorBadSplit (c : Cfg) : Keeping (c.mode = .throw) (handleErrorBadSplit c) :=
  km fun s => by cases c.mode <;> exact ⟨rfl, rfl⟩

theorem keep_clearError (c : Cfg) : Keeping (c.mode = .throw) (clearError c) := km fun _ => ⟨rfl, rfl⟩

theorem keep_split (c : Cfg) (delim : Bytes) : Keeping (c.mode = .throw) (split c delim) :=
  kb (km fun _ => ⟨rfl, rfl⟩) fun _ => kb (keep_onSpl (Spl.keep_rd 0)) fun _ => Relates.ite (kp _) (keep_onSpl (Spl.keep_split c delim))

theorem keep_columnPosition (i : Nat) : Keeping Q (columnPosition i) := by
  refine Relates.quiet ?_ ?_ <;> intro s a s' h <;> unfold columnPosition at h <;> by_cases hm : s.mappings = []
  · rw [if_pos hm] at h; cases h; exact SameBlock.refl _
  · rw [if_neg hm] at h; cases hg : s.mappings[i]? <;> rw [hg] at h <;> cases h; exact SameBlock.refl _
  · rw [if_pos hm] at h; cases h
  · rw [if_neg hm] at h; cases hg : s.mappings[i]? <;> rw [hg] at h <;> cases h

theorem keep_elemAt (elems : List (Nat × Nat)) (i : Nat) : Keeping Q (elemAt elems i) := by
  constructor <;> intro s a s' h <;> unfold elemAt at h <;> cases hg : elems[i]? <;> rw [hg] at h <;> cases h
  exact SameBlock.refl _

theorem keep_extractAt (t : Ty) (p : Nat × Nat) (dst : Val) : Keeping Q (extractAt t p dst) := by
  refine Relates.quiet ?_ ?_ <;> intro s a s' h <;> unfold extractAt at h <;>
    by_cases hc : s.spl.gen ≠ s.spl.lineGen ∨ p.2 < p.1 ∨ s.spl.mem.length < p.2
  · rw [if_pos hc] at h; cases h
  · rw [if_neg hc] at h; cases hg : extract s.spl.mem p.1 p.2 t dst <;> rw [hg] at h <;> cases h; exact SameBlock.refl _
  · rw [if_pos hc] at h; cases h
  · rw [if_neg hc] at h; cases hg : extract s.spl.mem p.1 p.2 t dst <;> rw [hg] at h <;> cases h

theorem keep_textOf (p : Nat × Nat) : Keeping Q (textOf p) :=
  ⟨fun s _ _ h => (by cases h; exact SameBlock.refl _), fun _ _ _ h => (by cases h), fun _ _ _ h => (by cases h)⟩

theorem keep_tyOne (c : Cfg) (t : Ty) (p : Nat × Nat) (pos : Nat) (dst : Val) : Keeping (c.mode = .throw) (do
    let (ok, v) ← extractAt t p dst
    if !ok then
      let text ← textOf p
      handleError c (msgInvalidConversion text pos)
      pure v
    else pure v) := by
  refine kb (keep_extractAt _ _ _) fun okv => ?_
  obtain ⟨o, v⟩ := okv
  exact Relates.ite (kb (keep_textOf p) fun _ => kb (keep_handleError c _) fun _ => kp _) (kp _)

theorem keep_extractOne (c : Cfg) (r : Req) (p : Nat × Nat) (pos : Nat) (dst : Val) : Keeping (c.mode = .throw) (extractOne c r p pos dst) := by
  unfold extractOne
  refine kb kg fun s => Relates.ite (kp _) ?_
  cases r with
  | void => exact kp _
  | ty t =>
    cases t
    case str =>
      refine kb (keep_extractAt _ _ _) fun okv => ?_
      exact kp _
    all_goals exact keep_tyOne c _ p pos dst
  | valid t q msg =>
    refine kb (keep_extractAt _ _ _) fun okv => ?_
    obtain ⟨o, v⟩ := okv
    exact Relates.ite (kb (keep_textOf p) fun _ => kb (keep_handleError c _) fun _ => kp _)
      (Relates.ite (kb (keep_textOf p) fun _ => kb (keep_handleError c _) fun _ => kp _) (kp _))

theorem keep_extractMultiple (c : Cfg) (elems : List (Nat × Nat)) : ∀ (rs : List Req) (i : Nat), Keeping (c.mode = .throw) (extractMultiple c elems rs i)
  | [], _ => kp _
  | .void :: rs, i => keep_extractMultiple c elems rs (i + 1)
  | .ty t :: rs, i => kb (keep_columnPosition i) fun _ => kb (keep_elemAt _ _) fun _ => kb (keep_extractOne c _ _ _ _) fun _ =>
      kb (keep_extractMultiple c elems rs (i + 1)) fun _ => kp _
  | .valid t q m :: rs, i => kb (keep_columnPosition i) fun _ => kb (keep_elemAt _ _) fun _ => kb (keep_extractOne c _ _ _ _) fun _ =>
      kb (keep_extractMultiple c elems rs (i + 1)) fun _ => kp _

theorem keep_convertImpl (c : Cfg) (rs : List Req) (elems : List (Nat × Nat)) : Keeping (c.mode = .throw) (convertImpl c rs elems) := by
  unfold convertImpl
  refine kb (keep_clearError c) fun _ => kb kg fun s => Relates.ite (kb (keep_handleErrorBadSplit c) fun _ => kp _)
    (Relates.ite (Relates.ite (kb (keep_handleError c _) fun _ => kp _) (keep_extractMultiple c elems rs 0))
      (Relates.ite (kb (keep_handleError c _) fun _ => kp _)
        (Relates.ite (kb (keep_handleError c _) fun _ => kp _) (keep_extractMultiple c elems rs 0))))

theorem keep_convertCached (c : Cfg) (rs : List Req) : Keeping (c.mode = .throw) (convertCached c rs) := kb kg fun _ => keep_convertImpl c rs _

theorem keep_handleErrorUnterminatedEscape (c : Cfg) : Keeping (c.mode = .throw) (handleErrorUnterminatedEscape c) := by
  unfold handleErrorUnterminatedEscape
  have h := keep_onSpl (Spl.keep_handleError c Spl.msgUnterminatedEscape)
  cases hc : c.mode
  · exact km fun _ => ⟨rfl, rfl⟩
  · exact kb (hc ▸ h) fun _ => km fun _ => ⟨rfl, rfl⟩
  · exact kb (hc ▸ h) fun _ => km fun _ => ⟨rfl, rfl⟩

theorem keep_handleErrorUnterminatedQuote (c : Cfg) : Keeping (c.mode = .throw) (handleErrorUnterminatedQuote c) := by
  unfold handleErrorUnterminatedQuote
  have h := keep_onSpl (Spl.keep_handleError c Spl.msgUnterminatedQuote)
  cases hc : c.mode
  · exact km fun _ => ⟨rfl, rfl⟩
  · exact kb (hc ▸ h) fun _ => km fun _ => ⟨rfl, rfl⟩
  · exact kb (hc ▸ h) fun _ => km fun _ => ⟨rfl, rfl⟩

theorem keep_handleErrorMultilineLimit (c : Cfg) : Keeping (c.mode = .throw) (handleErrorMultilineLimit c) :=
  kb (km fun _ => ⟨rfl, rfl⟩) fun _ => keep_handleError c _

end Conv
end Ssp
