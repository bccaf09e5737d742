import Verif.Model.Oom
/-!
# A call for which memory may run out follows the call for which it does not
-/
namespace Ssp

/-- between the two states of the heap no request was refused -/
structure Calm (w : Alloc) (h h' : Heap) : Prop where
  enomem : h'.enomem = h.enomem
  le : h.reqs ≤ h'.reqs
  granted : ∀ i, h.reqs ≤ i → i < h'.reqs → w.refuses i = false

/-- between the two states of the heap a request was refused, or `errno` was ENOMEM before -/
structure Broke (w : Alloc) (h h' : Heap) : Prop where
  enomem : h'.enomem = true
  le : h.reqs ≤ h'.reqs
  why : h.enomem = true ∨ ∃ i, h.reqs ≤ i ∧ i < h'.reqs ∧ w.refuses i = true

theorem Calm.refl (w : Alloc) (h : Heap) : Calm w h h := ⟨rfl, Nat.le_refl _, fun i h1 h2 => by omega⟩

theorem Calm.trans {w : Alloc} {a b c : Heap} (h : Calm w a b) (h' : Calm w b c) : Calm w a c where
  enomem := h'.enomem.trans h.enomem
  le := Nat.le_trans h.le h'.le
  granted i h1 h2 := by
    by_cases hi : i < b.reqs
    · exact h.granted i h1 hi
    · exact h'.granted i (by omega) h2

theorem Calm.broke {w : Alloc} {a b c : Heap} (h : Calm w a b) (h' : Broke w b c) : Broke w a c where
  enomem := h'.enomem
  le := Nat.le_trans h.le h'.le
  why := by
    rcases h'.why with h1 | ⟨i, h1, h2, h3⟩
    · exact .inl (by rw [← h.enomem]; exact h1)
    · exact .inr ⟨i, Nat.le_trans h.le h1, h2, h3⟩

/-- How the outcome of a call for which memory may run out (right) is related to the outcome of the call for which it does not
(left). -/
inductive Out {σ α : Type} (w : Alloc) (h : Heap) : Res σ α → Res (σ × Heap) (Option α) → Prop
  | oom {r : Res σ α} {s : σ} {h' : Heap} : Broke w h h' → Out w h r (.ok none (s, h'))
  | ok {a : α} {s : σ} {h' : Heap} : Calm w h h' → Out w h (.ok a s) (.ok (some a) (s, h'))
  | exc {e : Bytes} {s : σ} {h' : Heap} : Calm w h h' → Out w h (.exc e s) (.exc e (s, h'))
  | ub : Out w h .ub .ub
  | nofuel : Out w h .nofuel .nofuel

def Follows {σ α : Type} (w : Alloc) (m : M σ α) (f : F σ α) : Prop := ∀ s h, Out w h (m s) (f (s, h))

/-- the outcome of an operation on a part of the object -/
def Res.within {σ τ α : Type} (set : τ → σ) : Res τ α → Res σ α
  | .ok a t => .ok a (set t)
  | .exc e t => .exc e (set t)
  | .ub => .ub
  | .nofuel => .nofuel

theorem F.get_bind {σ β : Type} (f : σ → F σ β) (s : σ) (h : Heap) : (F.get >>= f) (s, h) = f s (s, h) := rfl
theorem F.modify_bind {σ β : Type} (k : σ → σ) (f : Unit → F σ β) (s : σ) (h : Heap) :
    (F.lift (M.modify k) >>= f) (s, h) = f () (k s, h) := rfl
theorem F.errno_bind {σ β : Type} (f : Bool → F σ β) (s : σ) (h : Heap) :
    (F.errnoIsEnomem >>= f) (s, h) = f h.enomem (s, h) := rfl

namespace Follows
variable {σ α β : Type} {w : Alloc}

theorem lift (m : M σ α) : Follows w m (F.lift m) := by
  intro s h
  show Out w h (m s) (match m s with | .ok a s => _ | .exc e s => _ | .ub => _ | .nofuel => _)
  cases m s
  · exact .ok (Calm.refl _ _)
  · exact .exc (Calm.refl _ _)
  · exact .ub
  · exact .nofuel

theorem pure (a : α) : Follows w (Pure.pure a : M σ α) (Pure.pure a : F σ α) := fun _ _ => .ok (Calm.refl _ _)

theorem get : Follows w (M.get : M σ σ) F.get := lift _

theorem bind {m : M σ α} {f : F σ α} {k : α → M σ β} {g : α → F σ β} (h : Follows w m f) (hk : ∀ a, Follows w (k a) (g a)) :
    Follows w (m >>= k) (f >>= g) := by
  intro s hp
  have h1 := h s hp
  show Out w hp (match m s with | .ok a s => _ | .exc e s => _ | .ub => _ | .nofuel => _)
    (match f (s, hp) with | .ok (some a) p' => _ | .ok none p' => _ | .exc e p' => _ | .ub => _ | .nofuel => _)
  generalize m s = r at h1
  generalize f (s, hp) = r' at h1
  cases h1 with
  | oom hb => exact .oom hb
  | ok hc =>
    rename_i a s' h'
    have h2 := hk a s' h'
    show Out w hp (k a s') (g a (s', h'))
    generalize k a s' = r at h2
    generalize g a (s', h') = r' at h2
    cases h2 with
    | oom hb => exact .oom (hc.broke hb)
    | ok h => exact .ok (hc.trans h)
    | exc h => exact .exc (hc.trans h)
    | ub => exact .ub
    | nofuel => exact .nofuel
  | exc hc => exact .exc hc
  | ub => exact .ub
  | nofuel => exact .nofuel

theorem ite {p : Prop} [Decidable p] {m m' : M σ α} {f f' : F σ α} (h : p → Follows w m f) (h' : ¬ p → Follows w m' f') :
    Follows w (if p then m else m') (if p then f else f') := by
  by_cases hp : p
  · rw [if_pos hp, if_pos hp]; exact h hp
  · rw [if_neg hp, if_neg hp]; exact h' hp

theorem zoom {τ : Type} {g : σ → τ} {set : σ → τ → σ} {m : M τ α} {f : F τ α} {m' : M σ α} (h : Follows w m f)
    (hm : ∀ s, m' s = (m (g s)).within (set s)) :
    Follows w m' (F.zoom g set f) := by
  intro s hp
  have h1 := h (g s) hp
  rw [hm]
  unfold F.zoom
  simp only
  generalize m (g s) = r at h1 ⊢
  generalize f (g s, hp) = r' at h1 ⊢
  cases h1 with
  | oom hb => exact .oom hb
  | ok hc => exact .ok hc
  | exc hc => exact .exc hc
  | ub => exact .ub
  | nofuel => exact .nofuel

end Follows

theorem request_cases {σ : Type} (w : Alloc) (s : σ) (h : Heap) :
    (F.request w (s, h) = .ok (some true) (s, { h with reqs := h.reqs + 1 }) ∧ Calm w h { h with reqs := h.reqs + 1 }) ∨
    (F.request w (s, h) = .ok (some false) (s, { reqs := h.reqs + 1, enomem := true }) ∧
      Broke w h { reqs := h.reqs + 1, enomem := true }) := by
  unfold F.request
  simp only
  cases hr : w.refuses h.reqs with
  | true => exact .inr ⟨rfl, rfl, by simp, .inr ⟨h.reqs, by simp [hr]⟩⟩
  | false =>
    refine .inl ⟨rfl, rfl, by simp, fun i h1 h2 => ?_⟩
    have : i = h.reqs := by simp only at h2; omega
    rw [this]; exact hr

theorem F.bind_ok {σ α β : Type} {m : F σ α} {f : α → F σ β} {p p' : σ × Heap} {a : α} (h : m p = .ok (some a) p') :
    (m >>= f) p = f a p' := by
  show F.bind m f p = _
  simp [F.bind, h]

theorem F.bind_none {σ α β : Type} {m : F σ α} {f : α → F σ β} {p p' : σ × Heap} (h : m p = .ok none p') :
    (m >>= f) p = .ok none p' := by
  show F.bind m f p = _
  simp [F.bind, h]

namespace Io
variable {w : Alloc}

theorem follows_realloc (env : Env) (size : Nat) : Follows w (realloc env size) (reallocF w env size) := by
  intro s h
  unfold reallocF
  rcases request_cases w s h with ⟨h1, h2⟩ | ⟨h1, h2⟩
  · rw [F.bind_ok h1]
    exact .ok h2
  · rw [F.bind_ok h1]
    exact .oom h2

theorem follows_reallocIf (env : Env) (p : Prop) [Decidable p] (size : Nat) :
    Follows w (reallocIf env p size) (reallocIfF w env p size) := by
  intro s h
  unfold reallocIf reallocIfF
  by_cases hp : p
  · rw [if_pos hp, if_pos hp]; exact follows_realloc env size s h
  · rw [if_neg hp, if_neg hp]; exact .ok (Calm.refl _ _)

theorem follows_bufLoop (env : Env) (ptr : Option Bytes) (size : Nat) : ∀ f used,
    Follows w (bufLoop env ptr size f used) (bufLoopF w env ptr size f used)
  | 0, _ => Follows.lift _
  | f + 1, used => by
    unfold bufLoop bufLoopF
    refine Follows.get.bind fun s => Follows.ite (fun _ => ?_) fun _ => ?_
    · refine (follows_reallocIf _ _ _).bind fun _ => (Follows.lift _).bind fun c => (Follows.lift _).bind fun _ =>
        (Follows.lift _).bind fun _ => Follows.ite (fun _ => ?_) fun _ => follows_bufLoop env ptr size f (used + 1)
      exact (Follows.lift _).bind fun _ => Follows.pure _
    · exact (Follows.lift _).bind fun _ => Follows.pure _

theorem follows_getLineBuffer (env : Env) (ptr : Option Bytes) (size : Nat) :
    Follows w (getLineBuffer env ptr size) (getLineBufferF w env ptr size) := by
  unfold getLineBuffer getLineBufferF
  refine Follows.get.bind fun s => Follows.ite (fun _ => Follows.pure _) fun _ => ?_
  exact (follows_reallocIf _ _ _).bind fun _ => (follows_bufLoop _ _ _ _ _).bind fun _ => Follows.pure _

theorem follows_fgetsLoop (env : Env) (data : Bytes) : ∀ f used,
    Follows w (fgetsLoop env data f used) (fgetsLoopF w env data f used)
  | 0, _ => Follows.lift _
  | f + 1, used => by
    unfold fgetsLoop fgetsLoopF
    refine (Follows.lift _).bind fun r => ?_
    cases r with
    | none => exact Follows.pure _
    | some buff =>
      refine (Follows.lift _).bind fun lineUsed => ?_
      cases strlen buff with
      | none => exact Follows.lift _
      | some buffUsed =>
        refine Follows.get.bind fun s => (follows_reallocIf _ _ _).bind fun _ => (Follows.lift _).bind fun _ =>
          (Follows.lift _).bind fun _ => Follows.ite (fun _ => Follows.lift _) fun _ => (Follows.lift _).bind fun b =>
          Follows.ite (fun _ => Follows.pure _) fun _ => follows_fgetsLoop env data f _

theorem follows_getlinePortable (env : Env) (data : Bytes) :
    Follows w (getlinePortable env data) (getlinePortableF w env data) := by
  unfold getlinePortable getlinePortableF
  exact Follows.get.bind fun s => (follows_reallocIf _ _ _).bind fun _ => (Follows.lift _).bind fun _ => follows_fgetsLoop _ _ _ _

theorem follows_lineOrBadAlloc (r : Option Nat) : Follows w (pure r) (lineOrBadAlloc r) := by
  cases r with
  | some k => exact Follows.pure _
  | none =>
    intro s h
    cases he : h.enomem with
    | true =>
      have : lineOrBadAlloc none (s, h) = .ok none (s, h) := by
        show (F.errnoIsEnomem >>= fun b => if b then F.badAlloc else pure none) (s, h) = _
        rw [F.errno_bind, he]
        rfl
      rw [this]
      exact .oom ⟨he, Nat.le_refl _, .inl he⟩
    | false =>
      have : lineOrBadAlloc none (s, h) = .ok (some none) (s, h) := by
        show (F.errnoIsEnomem >>= fun b => if b then F.badAlloc else pure none) (s, h) = _
        rw [F.errno_bind, he]
        rfl
      rw [this]
      exact .ok (Calm.refl _ _)

/-- the part of `get_line` behind `get_line_file` -/
theorem after_none {k : Io → Io} {s : Io} {h : Heap} (he : h.enomem = true) :
    (do
      F.lift (M.modify k)
      lineOrBadAlloc none : F Io (Option Nat)) (s, h) = .ok none (k s, h) := by
  rw [F.modify_bind]
  show (F.errnoIsEnomem >>= fun b => if b then F.badAlloc else pure none) (k s, h) = _
  rw [F.errno_bind, he]
  rfl

theorem bind_congr_apply {σ α β : Type} {m m' : F σ α} {f : α → F σ β} {p p' : σ × Heap} (h : m p = m' p') :
    (m >>= f) p = (m' >>= f) p' := by
  show F.bind m f p = F.bind m' f p'
  simp [F.bind, h]

theorem lift_modify {σ : Type} (k : σ → σ) (s : σ) (h : Heap) : F.lift (M.modify k) (s, h) = .ok (some ()) (k s, h) := rfl

theorem reallocIf_pos {env : Env} {p : Prop} [Decidable p] {size : Nat} {s : Io} (hp : p) :
    reallocIf env p size s = .ok () (match realloc env size s with | .ok _ s' => s' | _ => s) := if_pos hp
theorem reallocIf_neg {env : Env} {p : Prop} [Decidable p] {size : Nat} {s : Io} (hp : ¬ p) :
    reallocIf env p size s = .ok () s := if_neg hp

/-- what POSIX `getline` does: as without refusals, or its request is refused -/
theorem getlinePosixF_cases (w : Alloc) (env : Env) (data : Bytes) (s : Io) (h : Heap) :
    (∃ h', Calm w h h' ∧ ∃ r s', getlinePosix env data s = .ok r s' ∧ getlinePosixF w env data (s, h) = .ok (some r) (s', h')) ∨
    (∃ h' s', Broke w h h' ∧ getlinePosixF w env data (s, h) = .ok (some none) (s', h') ∧ s'.mem.length = s.mem.length ∧ s'.n = s.n ∧
      s'.curr = s.curr ∧ s'.tick = s.tick ∧ s'.gen = s.gen ∧ s.fpos ≤ s'.fpos ∧ (data.length ≤ s.fpos → s'.fpos = s.fpos) ∧
      s'.fpos ≤ s.fpos + (upToLF (data.drop s.fpos)).length) := by
  unfold getlinePosix getlinePosixF
  simp only [M.get_bind]
  rw [F.get_bind]
  by_cases hl : upToLF (data.drop s.fpos) = []
  · rw [if_pos hl, if_pos hl]
    by_cases hm : s.mem = []
    · rw [if_pos hm]
      rcases request_cases w s h with ⟨h1, h2⟩ | ⟨h1, h2⟩
      · refine .inl ⟨_, h2, none, (match realloc env (env.grow s.tick) s with | .ok _ s' => s' | _ => s), ?_, ?_⟩
        · rw [M.bind_of_ok (reallocIf_pos hm)]
          rfl
        · rw [F.bind_ok h1]
          rfl
      · refine .inr ⟨_, s, h2, ?_, rfl, rfl, rfl, rfl, rfl, Nat.le_refl _, fun _ => rfl, by omega⟩
        rw [F.bind_ok h1]
        rfl
    · rw [if_neg hm]
      refine .inl ⟨h, Calm.refl _ _, none, s, ?_, rfl⟩
      rw [M.bind_of_ok (reallocIf_neg hm)]
      rfl
  · rw [if_neg hl, if_neg hl]
    by_cases hm : s.mem = [] ∨ s.n < (upToLF (data.drop s.fpos)).length + 1
    · rw [if_pos hm]
      rcases request_cases w s h with ⟨h1, h2⟩ | ⟨h1, h2⟩
      · refine .inl ⟨_, h2, some (upToLF (data.drop s.fpos)).length,
          (fun s1 : Io => { s1 with mem := upToLF (data.drop s.fpos) ++ NUL :: s1.mem.drop ((upToLF (data.drop s.fpos)).length + 1), fpos := s1.fpos + (upToLF (data.drop s.fpos)).length })
          (match realloc env ((upToLF (data.drop s.fpos)).length + 1 + env.grow s.tick) s with | .ok _ s' => s' | _ => s), ?_, ?_⟩
        · rw [M.bind_of_ok (reallocIf_pos hm)]
          rfl
        · rw [F.bind_ok (a := true) (p' := ((match realloc env ((upToLF (data.drop s.fpos)).length + 1 + env.grow s.tick) s with | .ok _ s' => s' | _ => s), _))
            (by rw [F.bind_ok h1]; rfl)]
          rfl
      · refine .inr ⟨_, { s with
          mem := (upToLF (data.drop s.fpos)).take (min (w.got (h.reqs + 1)) (min ((upToLF (data.drop s.fpos)).length - 1) s.mem.length)) ++
            s.mem.drop (min (w.got (h.reqs + 1)) (min ((upToLF (data.drop s.fpos)).length - 1) s.mem.length))
          fpos := s.fpos + min (w.got (h.reqs + 1)) (min ((upToLF (data.drop s.fpos)).length - 1) s.mem.length) }, h2, ?_, ?_⟩
        · rw [F.bind_ok (a := false) (p' := (s, _)) (by rw [F.bind_ok h1]; rfl)]
          rfl
        · simp only [List.length_append, List.length_take, List.length_drop, true_and]
          refine ⟨?_, by omega, ?_, by omega⟩
          · have := Nat.sub_le (upToLF (data.drop s.fpos)).length 1
            omega
          · intro hd
            rw [List.drop_eq_nil_of_le hd] at hl
            exact absurd rfl hl
    · rw [if_neg hm]
      refine .inl ⟨h, Calm.refl _ _, some (upToLF (data.drop s.fpos)).length, _, ?_, rfl⟩
      rw [M.bind_of_ok (reallocIf_neg hm)]
      rfl

theorem follows_getLine (env : Env) (src : Src) : Follows w (getLine env src) (getLineF w env src) := by
  cases src with
  | buf ptr size =>
    show Follows w (getLineBuffer env ptr size) (getLineBufferF w env ptr size >>= fun r => lineOrBadAlloc r)
    have h : Follows w (getLineBuffer env ptr size >>= fun r => pure r) (getLineBufferF w env ptr size >>= fun r => lineOrBadAlloc r) :=
      (follows_getLineBuffer env ptr size).bind fun r => follows_lineOrBadAlloc r
    intro s hp
    have := h s hp
    have he : (getLineBuffer env ptr size >>= fun r => pure r) s = getLineBuffer env ptr size s := by
      simp only [M.bind_apply]; cases getLineBuffer env ptr size s <;> rfl
    rwa [he] at this
  | file unix data =>
    cases unix with
    | false =>
      exact (follows_getlinePortable env data).bind fun r => (Follows.lift _).bind fun _ => follows_lineOrBadAlloc r
    | true =>
      intro s h
      show Out w h (((getlinePosix env data) >>= fun r => (M.modify fun s => { s with curr := advance s.curr r }) >>= fun _ => pure r) s)
        ((getlinePosixF w env data >>= fun r => F.lift (M.modify fun s => { s with curr := advance s.curr r }) >>= fun _ => lineOrBadAlloc r) (s, h))
      rcases getlinePosixF_cases w env data s h with ⟨h', hc, r, s', e1, e2⟩ | ⟨h', s', hb, e2, _⟩
      · rw [M.bind_of_ok e1, F.bind_ok e2]
        have := ((Follows.lift (w := w) (M.modify fun s : Io => { s with curr := advance s.curr r })).bind fun _ => follows_lineOrBadAlloc r) s' h'
        generalize ((M.modify fun s : Io => { s with curr := advance s.curr r }) >>= fun _ => pure r) s' = r1 at this ⊢
        generalize (F.lift (M.modify fun s : Io => { s with curr := advance s.curr r }) >>= fun _ => lineOrBadAlloc r) (s', h') = r2 at this ⊢
        cases this with
        | oom hb => exact .oom (hc.broke hb)
        | ok h => exact .ok (hc.trans h)
        | exc h => exact .exc (hc.trans h)
        | ub => exact .ub
        | nofuel => exact .nofuel
      · rw [F.bind_ok e2, after_none hb.enomem]
        exact .oom hb

end Io

namespace Reader
variable {w : Alloc}

theorem follows_getLineNext (x : Ctx) : Follows w (getLineNext x) (getLineNextF w x) :=
  (Io.follows_getLine x.env x.src).zoom fun s => by unfold getLineNext; cases Io.getLine x.env x.src s.ioNext <;> rfl
theorem follows_getLineHelper (x : Ctx) : Follows w (getLineHelper x) (getLineHelperF w x) :=
  (Io.follows_getLine x.env x.src).zoom fun s => by unfold getLineHelper; cases Io.getLine x.env x.src s.ioHelper <;> rfl

theorem follows_readNextLoop (x : Ctx) : ∀ f, Follows w (readNextLoop x f) (readNextLoopF w x f)
  | 0 => Follows.lift _
  | f + 1 => by
    unfold readNextLoop readNextLoopF
    refine (Follows.lift _).bind fun _ => Follows.get.bind fun s => (Follows.lift _).bind fun _ => (Follows.lift _).bind fun _ =>
      (follows_getLineNext x).bind fun r => ?_
    cases r with
    | none => exact Follows.pure _
    | some ssize =>
      exact (Follows.lift _).bind fun size => Follows.ite (fun _ => follows_readNextLoop x f) fun _ => (Follows.lift _).bind fun _ => Follows.pure _

theorem follows_readNext (x : Ctx) : Follows w (readNext x) (readNextF w x) :=
  (Follows.lift _).bind fun _ => follows_readNextLoop x _

theorem follows_reallocConcat (x : Ctx) (k : Nat) : Follows w (reallocConcat x k) (reallocConcatF w x k) := by
  intro s h
  unfold reallocConcatF
  rcases request_cases w s h with ⟨h1, h2⟩ | ⟨h1, h2⟩
  · rw [F.bind_ok h1]
    have := Follows.lift (w := w) (reallocConcat x k) s { h with reqs := h.reqs + 1 }
    simp only [if_true]
    generalize reallocConcat x k s = r1 at this ⊢
    generalize F.lift (reallocConcat x k) (s, { h with reqs := h.reqs + 1 }) = r2 at this ⊢
    cases this with
    | oom hb => exact .oom (h2.broke hb)
    | ok h => exact .ok (h2.trans h)
    | exc h => exact .exc (h2.trans h)
    | ub => exact .ub
    | nofuel => exact .nofuel
  · rw [F.bind_ok h1]
    exact .oom h2

theorem follows_appendNextLine (x : Ctx) : Follows w (appendNextLine x) (appendNextLineF w x) := by
  unfold appendNextLine appendNextLineF
  refine (Follows.lift _).bind fun _ => (Follows.lift _).bind fun _ => (follows_getLineHelper x).bind fun r => ?_
  cases r with
  | none => exact Follows.pure _
  | some ssize => exact (Follows.lift _).bind fun _ => (Follows.lift _).bind fun _ => (follows_reallocConcat x _).bind fun _ => Follows.pure _

theorem follows_escapeLoop (x : Ctx) : ∀ f limit, Follows w (escapeLoop x f limit) (escapeLoopF w x f limit)
  | 0, _ => Follows.lift _
  | f + 1, limit => by
    unfold escapeLoop escapeLoopF
    refine Follows.get.bind fun s => (Follows.lift _).bind fun b => Follows.ite (fun _ => ?_) fun _ => Follows.pure _
    refine (Follows.lift _).bind fun b => Follows.ite (fun _ => Follows.pure _) fun _ => ?_
    refine (follows_appendNextLine x).bind fun b => Follows.ite (fun _ => follows_escapeLoop x f (limit + 1)) fun _ => ?_
    exact (Follows.lift _).bind fun _ => Follows.pure _

theorem follows_escapeLoopIf (x : Ctx) (limit : Nat) : Follows w (escapeLoopIf x limit) (escapeLoopIfF w x limit) :=
  Follows.ite (fun _ => follows_escapeLoop x _ _) fun _ => Follows.pure _

theorem follows_quoteLoop (x : Ctx) : ∀ f limit, Follows w (quoteLoop x f limit) (quoteLoopF w x f limit)
  | 0, _ => Follows.lift _
  | f + 1, limit => by
    unfold quoteLoop quoteLoopF
    refine Follows.get.bind fun s => Follows.ite (fun _ => ?_) fun _ => Follows.pure _
    refine Follows.ite (fun _ => Follows.lift _) fun _ => ?_
    refine (Follows.lift _).bind fun _ => (Follows.lift _).bind fun b => Follows.ite (fun _ => Follows.pure _) fun _ => ?_
    refine (follows_appendNextLine x).bind fun b => Follows.ite (fun _ => ?_) fun _ => Follows.lift _
    refine (follows_escapeLoopIf x _).bind fun r => ?_
    cases r with
    | none => exact Follows.pure _
    | some limit' => exact Follows.get.bind fun s => (Follows.lift _).bind fun _ => follows_quoteLoop x f limit'

theorem follows_parse (x : Ctx) : Follows w (parse x) (parseF w x) := by
  unfold parse parseF
  refine (follows_escapeLoopIf x 0).bind fun r => ?_
  cases r with
  | none => exact Follows.pure _
  | some limit => exact (Follows.lift _).bind fun _ => Follows.ite (fun _ => follows_quoteLoop x _ _) fun _ => Follows.pure _

end Reader

namespace Parser
variable {w : Alloc} {α : Type}

theorem follows_onRd {m : M Reader α} {f : F Reader α} (h : Follows w m f) : Follows w (onRd m) (onRdF f) :=
  h.zoom (g := fun s : Parser => s.rd) (set := fun s r => { s with rd := r }) fun s => by unfold onRd; cases m s.rd <;> rfl

theorem follows_tryCatch {m : M Parser α} {f : F Parser α} {k : Bytes → M Parser α} {g : Bytes → F Parser α} (h : Follows w m f)
    (hk : ∀ e, Follows w (k e) (g e)) : Follows w (tryCatch m k) (tryCatchF f g) := by
  intro s hp
  have h1 := h s hp
  unfold tryCatch tryCatchF
  generalize m s = r at h1 ⊢
  generalize f (s, hp) = r' at h1 ⊢
  cases h1 with
  | oom hb => exact .oom hb
  | ok hc => exact .ok hc
  | exc hc =>
    rename_i e s' h'
    have h2 := hk e s' h'
    simp only
    generalize k e s' = r at h2 ⊢
    generalize g e (s', h') = r' at h2 ⊢
    cases h2 with
    | oom hb => exact .oom (hc.broke hb)
    | ok h => exact .ok (hc.trans h)
    | exc h => exact .exc (hc.trans h)
    | ub => exact .ub
    | nofuel => exact .nofuel
  | ub => exact .ub
  | nofuel => exact .nofuel

theorem follows_readLine (x : Ctx) : Follows w (readLine x) (readLineF w x) :=
  (follows_onRd (Reader.follows_readNext x)).bind fun _ => Follows.lift _

theorem follows_ignoreNext (x : Ctx) : Follows w (ignoreNext x) (ignoreNextF w x) := follows_onRd (Reader.follows_readNext x)

theorem follows_parseRow (x : Ctx) : Follows w (parseRow x) (parseRowF w x) := by
  unfold parseRow parseRowF
  cases x.cfg.mode with
  | throw => exact follows_tryCatch (follows_onRd (Reader.follows_parse x)) fun e => (follows_readLine x).bind fun _ => Follows.lift _
  | bool => exact follows_onRd (Reader.follows_parse x)
  | string => exact follows_onRd (Reader.follows_parse x)

theorem follows_parseRowIf (x : Ctx) : Follows w (parseRowIf x) (parseRowIfF w x) := by
  intro s h
  unfold parseRowIf parseRowIfF
  rw [F.get_bind]
  cases s.eof with
  | true => exact .ok (Calm.refl _ _)
  | false => exact follows_parseRow x s h

theorem follows_convertRow (x : Ctx) (rs : List Req) : Follows w (convertRow x rs) (convertRowF w x rs) := by
  unfold convertRow convertRowF
  cases x.cfg.mode with
  | throw =>
    exact follows_tryCatch ((Follows.lift _).bind fun v => (follows_readLine x).bind fun _ => Follows.pure _)
      fun e => (follows_readLine x).bind fun _ => Follows.lift _
  | bool => exact (Follows.lift _).bind fun v => Follows.get.bind fun s => (Follows.lift _).bind fun _ =>
      (follows_readLine x).bind fun _ => Follows.pure _
  | string => exact (Follows.lift _).bind fun v => Follows.get.bind fun s => (Follows.lift _).bind fun _ =>
      (follows_readLine x).bind fun _ => Follows.pure _

theorem follows_getNext (x : Ctx) (rs : List Req) : Follows w (getNext x rs) (getNextF w x rs) := by
  unfold getNext getNextF
  refine (follows_parseRowIf x).bind fun _ => (Follows.lift _).bind fun _ => Follows.get.bind fun s =>
    Follows.ite (fun _ => ?_) fun _ => ?_
  · exact (Follows.lift _).bind fun _ => (follows_readLine x).bind fun _ => Follows.pure _
  · refine (Follows.lift _).bind fun _ => Follows.ite (fun _ => ?_) fun _ => follows_convertRow x rs
    exact (Follows.lift _).bind fun _ => Follows.pure _

theorem follows_firstLine (x : Ctx) : Follows w (firstLine x) (firstLineF w x) := by
  unfold firstLine firstLineF
  refine (follows_readLine x).bind fun _ => Follows.ite (fun _ => ?_) fun _ => ?_
  · exact (follows_ignoreNext x).bind fun _ => Follows.pure _
  · exact (Follows.lift _).bind fun _ => Follows.lift _

theorem follows_newFile (x : Ctx) : Follows w (newFile x) (newFileF w x) := by
  unfold newFileF
  cases h : x.src with
  | file u d => unfold newFile; rw [h]; exact follows_firstLine x
  | buf p n => exact Follows.lift _

theorem follows_newBuffer (x : Ctx) : Follows w (newBuffer x) (newBufferF w x) := by
  unfold newBufferF
  cases h : x.src with
  | file u d => unfold newBuffer; rw [h]; exact follows_firstLine x
  | buf p n =>
    cases p with
    | none => exact Follows.lift _
    | some p => unfold newBuffer; rw [h]; exact follows_firstLine x

theorem follows_useFields (x : Ctx) (fs : List Bytes) : Follows w (useFields x fs) (useFieldsF w x fs) := by
  unfold useFields useFieldsF
  refine (Follows.lift _).bind fun _ => (Follows.lift _).bind fun _ => Follows.get.bind fun s =>
    Follows.ite (fun _ => Follows.pure _) fun _ => Follows.ite (fun _ => Follows.lift _) fun _ => (Follows.lift _).bind fun r => ?_
  cases r with
  | none => exact Follows.pure _
  | some sel =>
    refine (Follows.lift _).bind fun _ => Follows.get.bind fun s => Follows.ite (fun _ => ?_) fun _ => Follows.pure _
    exact (follows_ignoreNext x).bind fun _ => Follows.pure _

theorem follows_tryNext (x : Ctx) (a : Alt) : Follows w (tryNext x a) (tryNextF w x a) := by
  unfold tryNext tryNextF
  refine (follows_getNext x _).bind fun v => Follows.get.bind fun s => Follows.ite (fun _ => ?_) fun _ => Follows.pure _
  exact (Follows.lift _).bind fun _ => Follows.get.bind fun s => Follows.pure _

theorem follows_tryChain (x : Ctx) (a : Alt) (as : List Alt) : Follows w (tryChain x a as) (tryChainF w x a as) := by
  unfold tryChain tryChainF
  exact (follows_tryNext x a).bind fun _ => (Follows.lift _).bind fun _ => Follows.pure _

end Parser

theorem follows_exec {w : Alloc} (x : Ctx) (op : Op) : Follows w (op.exec x) (op.execF w x) := by
  cases op with
  | getNext rs => exact (Parser.follows_getNext x rs).bind fun v => Follows.get.bind fun s => Follows.pure _
  | ignoreNext => exact (Parser.follows_ignoreNext x).bind fun v => Follows.pure _
  | header => exact Follows.lift _
  | rawHeader => exact Follows.lift _
  | fieldExists f => exact Follows.lift _
  | useFields fs => exact (Parser.follows_useFields x fs).bind fun _ => Follows.pure _
  | chain a as =>
    refine Follows.get.bind fun s => Follows.ite (fun _ => Follows.pure _) fun _ => ?_
    exact (Parser.follows_tryChain x a as).bind fun _ => Follows.pure _

end Ssp
