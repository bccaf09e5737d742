import Verif.Proofs.GrowParser
/-!
# Offsets into a data buffer only grow
-/
namespace Ssp

namespace Io
/-- the offset grew, but not beyond the end -/
structure Up (n : Nat) (s t : Io) : Prop where
  up : s.curr ≤ t.curr
  fit : s.curr ≤ n → t.curr ≤ n

variable {n : Nat}
theorem Up.refl (s : Io) : Up n s s := ⟨Nat.le_refl _, id⟩
theorem Up.trans {a b c : Io} (h : Up n a b) (h' : Up n b c) : Up n a c := ⟨Nat.le_trans h.up h'.up, fun i => h'.fit (h.fit i)⟩
theorem ub {α β : Type} {m : M Io α} {f : α → M Io β} (h : Relates True (Up n) m) (hf : ∀ a, Relates True (Up n) (f a)) :
    Relates True (Up n) (m >>= f) := Relates.bind (R := Up n) (fun _ _ _ => Up.trans) h hf
theorem same {s t : Io} (h : t.curr = s.curr) : Up n s t := ⟨Nat.le_of_eq h.symm, fun i => by rw [h]; exact i⟩

theorem up_wr (p : Nat) (b : Byte) : Relates True (Up n) (wr p b) := by
  constructor <;> intro s a s' h <;> unfold wr at h <;> by_cases hp : p < s.mem.length
  · rw [if_pos hp] at h; cases h; exact same rfl
  · rw [if_neg hp] at h; cases h
  · rw [if_pos hp] at h; cases h
  · rw [if_neg hp] at h; cases h
  · trivial
  · trivial

theorem up_rdCsv (ptr : Option Bytes) (i : Nat) : Relates True (Up n) (rdCsv ptr i) := by
  constructor <;> intro s a s' h <;> unfold rdCsv at h
  · cases ptr with
    | none => cases h
    | some d => dsimp only at h; cases hd : d[i]? <;> rw [hd] at h <;> cases h; exact Up.refl _
  · cases ptr with
    | none => cases h
    | some d => dsimp only at h; cases hd : d[i]? <;> rw [hd] at h <;> cases h
  · trivial

theorem up_reallocIf (env : Env) (p : Prop) [Decidable p] (size : Nat) : Relates True (Up n) (reallocIf env p size) := by
  constructor <;> intro s a s' h <;> unfold reallocIf at h <;> by_cases hp : p
  · rw [if_pos hp] at h; cases h; exact same rfl
  · rw [if_neg hp] at h; cases h; exact Up.refl _
  · rw [if_pos hp] at h; cases h
  · rw [if_neg hp] at h; cases h
  · trivial
  · trivial

theorem up_bufLoop (env : Env) (ptr : Option Bytes) : ∀ (f used : Nat), Relates True (Up n) (bufLoop env ptr n f used)
  | 0, _ => Relates.nofuel
  | f + 1, used => by
    have hrest : ∀ c, Relates True (Up n) (wr used c >>= fun _ => if c = LF then wr (used + 1) NUL >>= fun _ => pure (used + 1)
        else bufLoop env ptr n f (used + 1)) := fun c => ub (up_wr _ _) fun _ => Relates.ite
      (ub (up_wr _ _) fun _ => Relates.pure Up.refl _) (up_bufLoop env ptr f _)
    have key : ∀ s : Io, s.curr < n → Relates True (fun a b => a.curr = s.curr → Up n a b) (reallocIf env (used + 1 ≥ s.n) (s.n * 2) >>= fun _ =>
        rdCsv ptr s.curr >>= fun c => M.modify (fun s => { s with curr := s.curr + 1 }) >>= fun _ => wr used c >>= fun _ =>
        if c = LF then wr (used + 1) NUL >>= fun _ => pure (used + 1) else bufLoop env ptr n f (used + 1)) := by
      intro s hs
      have h1 : Relates True (fun a b : Io => b.curr = a.curr) (reallocIf env (used + 1 ≥ s.n) (s.n * 2)) := by
        constructor <;> intro s1 a s' h <;> unfold reallocIf at h <;> by_cases hp : used + 1 ≥ s.n
        · rw [if_pos hp] at h; cases h; rfl
        · rw [if_neg hp] at h; cases h; rfl
        · rw [if_pos hp] at h; cases h
        · rw [if_neg hp] at h; cases h
        · trivial
        · trivial
      have h2 : Relates True (fun a b : Io => b.curr = a.curr) (rdCsv ptr s.curr) := by
        constructor <;> intro s1 a s' h <;> unfold rdCsv at h
        · cases ptr with
          | none => cases h
          | some d => dsimp only at h; cases hd : d[s.curr]? <;> rw [hd] at h <;> cases h; rfl
        · cases ptr with
          | none => cases h
          | some d => dsimp only at h; cases hd : d[s.curr]? <;> rw [hd] at h <;> cases h
        · trivial
      have h3 : ∀ c, Relates True (fun a b : Io => a.curr = s.curr → Up n a b) (M.modify (fun s : Io => { s with curr := s.curr + 1 }) >>= fun _ => wr used c >>= fun _ =>
          if c = LF then wr (used + 1) NUL >>= fun _ => pure (used + 1) else bufLoop env ptr n f (used + 1)) := by
        intro c
        constructor <;> intro s1 a s' h
        · intro e
          rw [M.modify_bind] at h
          have := (hrest c).ok _ _ _ h
          exact Up.trans ⟨Nat.le_succ _, fun _ => by show s1.curr + 1 ≤ n; omega⟩ this
        · intro e
          rw [M.modify_bind] at h
          have := (hrest c).exc _ _ _ h
          exact Up.trans ⟨Nat.le_succ _, fun _ => by show s1.curr + 1 ≤ n; omega⟩ this
        · trivial
      have chain : ∀ {α β : Type} {m : M Io α} {g : α → M Io β}, Relates True (fun a b : Io => b.curr = a.curr) m →
          (∀ a, Relates True (fun a b : Io => a.curr = s.curr → Up n a b) (g a)) → Relates True (fun a b : Io => a.curr = s.curr → Up n a b) (m >>= g) := by
        intro α β m g hm hg
        constructor <;> intro s1 a s' h
        · intro e
          rw [M.bind_apply] at h
          cases hm1 : m s1 with
          | ok b s2 => rw [hm1] at h; have e2 := hm.ok _ _ _ hm1; exact Up.trans (same e2) ((hg b).ok _ _ _ h (e2.trans e))
          | exc b s2 => rw [hm1] at h; cases h
          | ub => rw [hm1] at h; cases h
          | nofuel => rw [hm1] at h; cases h
        · intro e
          rw [M.bind_apply] at h
          cases hm1 : m s1 with
          | ok b s2 => rw [hm1] at h; have e2 := hm.ok _ _ _ hm1; exact Up.trans (same e2) ((hg b).exc _ _ _ h (e2.trans e))
          | exc b s2 => rw [hm1] at h; cases h; exact same (hm.exc _ _ _ hm1)
          | ub => rw [hm1] at h; cases h
          | nofuel => rw [hm1] at h; cases h
        · trivial
      exact chain h1 fun _ => chain h2 h3
    constructor
    · intro s a s' h
      unfold bufLoop at h
      rw [M.get_bind] at h
      by_cases hs : s.curr < n
      · rw [if_pos hs] at h; exact (key s hs).ok _ _ _ h rfl
      · rw [if_neg hs] at h
        exact (ub (up_wr _ _) fun _ => Relates.pure Up.refl _ : Relates True (Up n) (wr used NUL >>= fun _ => pure used)).ok _ _ _ h
    · intro s a s' h
      unfold bufLoop at h
      rw [M.get_bind] at h
      by_cases hs : s.curr < n
      · rw [if_pos hs] at h; exact (key s hs).exc _ _ _ h rfl
      · rw [if_neg hs] at h
        exact (ub (up_wr _ _) fun _ => Relates.pure Up.refl _ : Relates True (Up n) (wr used NUL >>= fun _ => pure used)).exc _ _ _ h
    · intros; trivial

theorem up_getLine (env : Env) (p : Option Bytes) : Relates True (Up n) (getLine env (.buf p n)) := by
  unfold getLine getLineBuffer
  refine ub (Relates.get Up.refl) fun s => Relates.ite (Relates.pure Up.refl _) ?_
  exact ub (up_reallocIf _ _ _) fun _ => ub (up_bufLoop env p _ _) fun _ => Relates.pure Up.refl _
end Io

namespace Reader
/-- the offsets grew, but not beyond the end -/
structure Up (n : Nat) (s t : Reader) : Prop where
  low : s.charsRead ≤ s.curr → t.charsRead ≤ t.curr
  up : s.charsRead ≤ s.curr → s.charsRead ≤ t.charsRead
  fit : s.curr ≤ n → t.curr ≤ n

variable {n : Nat} {x : Ctx}
theorem Up.refl (s : Reader) : Up n s s := ⟨id, fun _ => Nat.le_refl _, id⟩
theorem Up.trans {a b c : Reader} (h : Up n a b) (h' : Up n b c) : Up n a c :=
  ⟨fun i => h'.low (h.low i), fun i => Nat.le_trans (h.up i) (h'.up (h.low i)), fun i => h'.fit (h.fit i)⟩
theorem ub {α β : Type} {m : M Reader α} {f : α → M Reader β} (h : Relates True (Up n) m) (hf : ∀ a, Relates True (Up n) (f a)) :
    Relates True (Up n) (m >>= f) := Relates.bind (R := Up n) (fun _ _ _ => Up.trans) h hf
theorem up_pure {α : Type} (a : α) : Relates True (Up n) (pure a : M Reader α) := Relates.pure Up.refl a
theorem up_get : Relates True (Up n) (M.get : M Reader Reader) := Relates.get Up.refl
theorem up_same {s t : Reader} (h : t.charsRead = s.charsRead) (h' : t.curr = s.curr) : Up n s t :=
  ⟨fun i => by rw [h, h']; exact i, fun _ => Nat.le_of_eq h.symm, fun i => by rw [h']; exact i⟩
theorem up_quiet {α : Type} {Q : Prop} {m : M Reader α} (h : Relates Q Quiet m) : Relates True (Up n) m :=
  ⟨fun s a t ht => up_same (h.ok s a t ht).chars (h.ok s a t ht).curr, fun s a t ht => up_same (h.exc s a t ht).chars (h.exc s a t ht).curr,
    fun _ _ _ _ => trivial⟩
theorem up_mod {f : Reader → Reader} (h : ∀ s, (f s).charsRead = s.charsRead ∧ (f s).curr = s.curr) : Relates True (Up n) (M.modify f) :=
  Relates.modify fun s => up_same (h s).1 (h s).2
theorem up_note : Relates True (Up n) (M.modify fun s : Reader => { s with charsRead := s.curr }) :=
  Relates.modify fun _ => ⟨fun _ => Nat.le_refl _, id, id⟩

theorem io_up {s t : Reader} {a b : Io} (h : Io.Up n a b) (e : t.charsRead = s.charsRead) (h1 : s.curr = a.curr) (h2 : t.curr = b.curr) : Up n s t :=
  ⟨fun i => by rw [e, h2]; exact Nat.le_trans (h1 ▸ i) h.up, fun _ => Nat.le_of_eq e.symm, fun i => by rw [h2]; exact h.fit (h1 ▸ i)⟩

theorem up_getLineNext {p : Option Bytes} (hs : x.src = .buf p n) : Relates True (Up n) (getLineNext x) := by
  have hu := Io.up_getLine (n := n) x.env p
  rw [← hs] at hu
  constructor <;> intro s a t h <;> unfold getLineNext at h <;> cases hm : Io.getLine x.env x.src s.ioNext <;> rw [hm] at h <;> cases h
  · exact io_up (hu.ok _ _ _ hm) rfl rfl rfl
  · exact io_up (hu.exc _ _ _ hm) rfl rfl rfl
  · trivial

theorem up_getLineHelper {p : Option Bytes} (hs : x.src = .buf p n) : Relates True (Up n) (getLineHelper x) := by
  have hu := Io.up_getLine (n := n) x.env p
  rw [← hs] at hu
  constructor <;> intro s a t h <;> unfold getLineHelper at h <;> cases hm : Io.getLine x.env x.src s.ioHelper <;> rw [hm] at h <;> cases h
  · exact io_up (hu.ok _ _ _ hm) rfl rfl rfl
  · exact io_up (hu.exc _ _ _ hm) rfl rfl rfl
  · trivial

theorem up_readNextLoop {p : Option Bytes} (hs : x.src = .buf p n) : ∀ f, Relates True (Up n) (readNextLoop x f)
  | 0 => Relates.nofuel
  | f + 1 => by
    unfold readNextLoop
    refine ub (up_mod fun _ => ⟨rfl, rfl⟩) fun _ => ub up_get fun s => ub (Relates.ite (up_quiet (quiet_wrNext (Q := True) _ _)) (up_pure _)) fun _ =>
      ub up_note fun _ => ub (up_getLineNext hs) fun r => ?_
    cases r with
    | none => exact up_pure _
    | some k => exact ub (up_quiet (quiet_removeEolNext (Q := True) _)) fun z => Relates.ite (up_readNextLoop hs f)
                  (ub (up_mod fun _ => ⟨rfl, rfl⟩) fun _ => up_pure _)

theorem up_readNext {p : Option Bytes} (hs : x.src = .buf p n) : Relates True (Up n) (readNext x) :=
  ub (up_quiet (quiet_onNext (Conv.keep_clearError _))) fun _ => up_readNextLoop hs _

theorem up_append {p : Option Bytes} (hs : x.src = .buf p n) : Relates True (Up n) (appendNextLine x) := by
  unfold appendNextLine
  refine ub (up_quiet (quiet_undoRemoveEol (Q := True))) fun _ => ub up_note fun _ => ub (up_getLineHelper hs) fun r => ?_
  cases r with
  | none => exact up_pure _
  | some k => exact ub (up_mod fun _ => ⟨rfl, rfl⟩) fun _ => ub (up_quiet (quiet_removeEolHelper (Q := True) _)) fun z =>
                ub (up_quiet (quiet_reallocConcat (Q := True) _ _)) fun _ => up_pure _

theorem up_escapeLoop {p : Option Bytes} (hs : x.src = .buf p n) : ∀ f k, Relates True (Up n) (escapeLoop x f k)
  | 0, _ => Relates.nofuel
  | f + 1, k => by
    unfold escapeLoop
    refine ub up_get fun s => ub (up_quiet (quiet_escapedEol (Q := True) x _)) fun b => Relates.ite ?_ (up_pure _)
    refine ub (up_quiet (quiet_multilineLimitReached x _)) fun b => Relates.ite (up_pure _) ?_
    refine ub (up_append hs) fun b => Relates.ite (up_escapeLoop hs f _) ?_
    exact ub (up_quiet (quiet_onNext (Conv.keep_handleErrorUnterminatedEscape _))) fun _ => up_pure _

theorem up_escapeLoopIf {p : Option Bytes} (hs : x.src = .buf p n) (k : Nat) : Relates True (Up n) (escapeLoopIf x k) :=
  Relates.ite (up_escapeLoop hs _ _) (up_pure _)

theorem up_quoteLoop {p : Option Bytes} (hs : x.src = .buf p n) : ∀ f k, Relates True (Up n) (quoteLoop x f k)
  | 0, _ => Relates.nofuel
  | f + 1, k => by
    unfold quoteLoop
    refine ub up_get fun s => Relates.ite (Relates.ite Relates.ub ?_) (up_pure _)
    refine ub (up_mod fun _ => ⟨rfl, rfl⟩) fun _ => ub (up_quiet (quiet_multilineLimitReached x _)) fun b => Relates.ite (up_pure _) ?_
    refine ub (up_append hs) fun b => Relates.ite ?_ (up_quiet (quiet_onNext (Conv.keep_handleErrorUnterminatedQuote _)))
    refine ub (up_escapeLoopIf hs _) fun r => ?_
    cases r with
    | none => exact up_pure _
    | some l => exact ub up_get fun s => ub (up_quiet (quiet_onNext (Conv.keep_onSpl (Spl.keep_resplit _ _ _)))) fun _ => up_quoteLoop hs f _

theorem up_parse {p : Option Bytes} (hs : x.src = .buf p n) : Relates True (Up n) (parse x) := by
  unfold parse
  refine ub (up_escapeLoopIf hs _) fun r => ?_
  cases r with
  | none => exact up_pure _
  | some l => exact ub (up_quiet (quiet_onNext (Conv.keep_split _ _))) fun _ => Relates.ite (up_quoteLoop hs _ _) (up_pure _)
end Reader

namespace Parser
/-- the offsets of the reader grew, but not beyond the end -/
def Up (n : Nat) (s t : Parser) : Prop := Reader.Up n s.rd t.rd

variable {n : Nat} {x : Ctx}
theorem Up.refl (s : Parser) : Up n s s := Reader.Up.refl _
theorem Up.trans {a b c : Parser} (h : Up n a b) (h' : Up n b c) : Up n a c := Reader.Up.trans h h'
theorem ub {α β : Type} {m : M Parser α} {f : α → M Parser β} (h : Relates True (Up n) m) (hf : ∀ a, Relates True (Up n) (f a)) :
    Relates True (Up n) (m >>= f) := Relates.bind (R := Up n) (fun _ _ _ => Up.trans) h hf
theorem up_pure {α : Type} (a : α) : Relates True (Up n) (pure a : M Parser α) := Relates.pure Up.refl a
theorem up_get : Relates True (Up n) (M.get : M Parser Parser) := Relates.get Up.refl
theorem up_mod {f : Parser → Parser} (h : ∀ s, (f s).rd = s.rd) : Relates True (Up n) (M.modify f) :=
  Relates.modify fun s => by unfold Up; rw [h]; exact Reader.Up.refl _
theorem up_quiet {α : Type} {Q : Prop} {m : M Parser α} (h : Relates Q Quiet m) : Relates True (Up n) m :=
  ⟨fun s a t ht => Reader.up_same (h.ok s a t ht).rd.chars (h.ok s a t ht).rd.curr,
    fun s a t ht => Reader.up_same (h.exc s a t ht).rd.chars (h.exc s a t ht).rd.curr, fun _ _ _ _ => trivial⟩
theorem up_onRd {α : Type} {m : M Reader α} (h : Relates True (Reader.Up n) m) : Relates True (Up n) (onRd m) := by
  constructor <;> intro s a t ht <;> unfold onRd at ht <;> cases hm : m s.rd <;> rw [hm] at ht <;> cases ht
  · exact h.ok _ _ _ hm
  · exact h.exc _ _ _ hm
  · trivial
theorem up_tryCatch {α : Type} {m : M Parser α} {k : Bytes → M Parser α} (h : Relates True (Up n) m) (hk : ∀ e, Relates True (Up n) (k e)) :
    Relates True (Up n) (tryCatch m k) := by
  constructor <;> intro s a t ht <;> unfold tryCatch at ht <;> cases hm : m s <;> rw [hm] at ht
  · cases ht; exact h.ok _ _ _ hm
  · exact (h.exc _ _ _ hm).trans ((hk _).ok _ _ _ ht)
  · cases ht
  · cases ht
  · cases ht
  · exact (h.exc _ _ _ hm).trans ((hk _).exc _ _ _ ht)
  · cases ht
  · cases ht
  all_goals trivial

theorem up_readLine {p : Option Bytes} (hs : x.src = .buf p n) : Relates True (Up n) (readLine x) :=
  ub (up_onRd (Reader.up_readNext hs)) fun _ => up_mod fun _ => rfl

theorem up_parseRowIf {p : Option Bytes} (hs : x.src = .buf p n) : Relates True (Up n) (parseRowIf x) := by
  have h : Relates True (Up n) (parseRow x) := by
    have hp := up_onRd (Reader.up_parse hs)
    unfold parseRow
    cases x.cfg.mode with
    | throw => exact up_tryCatch hp fun e => ub (up_readLine hs) fun _ => up_quiet (quiet_decorateRethrow x e)
    | string => exact hp
    | bool => exact hp
  constructor <;> intro s a t ht <;> unfold parseRowIf at ht <;> by_cases he : s.eof = true
  · rw [if_pos he] at ht; cases ht; exact Up.refl _
  · rw [if_neg he] at ht; exact h.ok _ _ _ ht
  · rw [if_pos he] at ht; cases ht
  · rw [if_neg he] at ht; exact h.exc _ _ _ ht
  all_goals trivial

theorem up_convertRow {p : Option Bytes} (hs : x.src = .buf p n) (rs : List Req) : Relates True (Up n) (convertRow x rs) := by
  have hq : Relates True (Up n) (onCur (Conv.convertCached x.cfg rs)) := up_quiet (quiet_onCur (Conv.keep_convertCached x.cfg rs))
  have hr := up_readLine hs
  have hsome : Relates True (Up n) (onCur (Conv.convertCached x.cfg rs) >>= fun v => M.get >>= fun s =>
      (if Conv.valid x.cfg s.rd.cur.conv then pure () else handleErrorInvalidConversion x) >>= fun _ => readLine x >>= fun _ => pure v) :=
    ub hq fun v => ub up_get fun s => ub (Relates.ite (up_pure _) (up_quiet (quiet_handleErrorInvalidConversion (Q := True) x))) fun _ => ub hr fun _ => up_pure _
  unfold convertRow
  cases x.cfg.mode with
  | throw => exact up_tryCatch (ub hq fun v => ub hr fun _ => up_pure _) fun e => ub hr fun _ => up_quiet (quiet_decorateRethrow x e)
  | string => exact hsome
  | bool => exact hsome

theorem up_getNext {p : Option Bytes} (hs : x.src = .buf p n) (rs : List Req) : Relates True (Up n) (getNext x rs) := by
  unfold getNext
  refine ub (up_parseRowIf hs) fun _ => ub (up_onRd (Reader.up_quiet (Reader.quiet_update (Q := True)))) fun _ => ub up_get fun s => Relates.ite ?_ ?_
  · exact ub (up_quiet (quiet_handleErrorInvalidConversion (Q := True) x)) fun _ => ub (up_readLine hs) fun _ => up_pure _
  · exact ub (up_quiet (quiet_clearError (Q := True) _)) fun _ => Relates.ite (ub (up_quiet (quiet_handleError _ _)) fun _ => up_pure _) (up_convertRow hs rs)

theorem up_exec {p : Option Bytes} (hs : x.src = .buf p n) (op : Op) : Relates True (Up n) (op.exec x) := by
  cases op with
  | getNext rs => exact ub (up_getNext hs rs) fun v => ub up_get fun s => up_pure _
  | ignoreNext => exact ub (up_onRd (Reader.up_readNext hs)) fun b => up_pure _
  | header => exact ub (up_quiet (quiet_getHeader x)) fun b => up_pure _
  | rawHeader => exact ub up_get fun s => up_pure _
  | fieldExists f => exact ub (up_quiet (quiet_fieldExists x f)) fun b => up_pure _
  | useFields fs =>
    refine ub ?_ fun _ => up_pure _
    unfold useFields
    refine ub (up_quiet (quiet_clearError (Q := True) _)) fun _ => ub (up_quiet (quiet_splitHeaderDataIf x _)) fun _ => ub up_get fun s =>
      Relates.ite (up_pure _) (Relates.ite (up_quiet (quiet_error x.cfg _)) (ub (up_quiet (quiet_mapFields x fs fs)) fun r => ?_))
    cases r with
    | none => exact up_pure _
    | some sel => exact ub (up_quiet (quiet_setMapping (Q := True) sel)) fun _ => ub up_get fun s => Relates.ite
                    (ub (up_onRd (Reader.up_readNext hs)) fun _ => up_pure _) (up_pure _)
  | chain a as =>
    refine ub up_get fun s => Relates.ite (up_pure _) (ub ?_ fun _ => up_pure _)
    unfold tryChain tryNext
    refine ub (ub (up_getNext hs a.reqs) fun v => ub up_get fun s => Relates.ite
      (up_quiet (qb (quiet_tryInvoke x v a.fn) fun c => qb qg fun s => qp _)) (up_pure _)) fun r => ?_
    exact ub (up_quiet (quiet_orElses x as)) fun _ => up_pure _

theorem up_firstLine {p : Option Bytes} (hs : x.src = .buf p n) : Relates True (Up n) (firstLine x) := by
  unfold firstLine
  refine ub (up_readLine hs) fun _ => Relates.ite (ub (up_onRd (Reader.up_readNext hs)) fun _ => up_pure _) ?_
  exact ub (up_quiet (quiet_onRd (Reader.still_getBuffer (Q := True)))) fun b => up_mod fun _ => rfl

end Parser
end Ssp
