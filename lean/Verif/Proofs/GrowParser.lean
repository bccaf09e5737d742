import Verif.Proofs.Grow
/-!
# A parser of an input to which bytes are appended
-/
namespace Ssp
namespace Parser

/-- the world of a parser: the one of its reader; `eof()` only when the end was passed -/
def world (x : Ctx) : World Parser where
  I s := (Reader.world x).I s.rd ∧ (s.eof = true → (Reader.world x).P s.rd)
  S s t := (Reader.world x).S s.rd t.rd
  T s := (Reader.world x).T s.rd
  P s := (Reader.world x).P s.rd
  refl _ := (Reader.world x).refl _
  trans _ _ _ h h' := (Reader.world x).trans _ _ _ h h'
  stayT _ _ h i := (Reader.world x).stayT _ _ h i
  stayP _ _ h i := (Reader.world x).stayP _ _ h i
  weak _ h := (Reader.world x).weak _ h

/-- nothing was read -/
structure Quiet (s t : Parser) : Prop where
  rd : s.rd.Still t.rd
  eof : t.eof = s.eof

theorem Quiet.refl (s : Parser) : Quiet s s := ⟨Reader.Still.refl _, rfl⟩
theorem Quiet.trans {a b c : Parser} (h : Quiet a b) (h' : Quiet b c) : Quiet a c := ⟨h.rd.trans h'.rd, h'.eof.trans h.eof⟩

theorem Quiet.step {x : Ctx} {s t : Parser} (h : Quiet s t) (hi : (world x).I s) : (world x).I t ∧ (world x).S s t := by
  obtain ⟨h1, h2⟩ := h.rd.quiet.step hi.1
  exact ⟨⟨h1, fun e => (Reader.world x).stayP _ _ h2 (hi.2 (h.eof ▸ e))⟩, h2⟩

variable {Q : Prop}

theorem ext_quiet {α : Type} {x : Ctx} {D E : Parser → Prop} {m : M Parser α} (h : Relates Q Quiet m) : (world x).Ext D E m m :=
  World.Ext.same (Q := Q) ⟨fun s a t ht => (h.ok s a t ht).step, fun s a t ht => (h.exc s a t ht).step, h.thr⟩

theorem qb {α β : Type} {m : M Parser α} {f : α → M Parser β} (h : Relates Q Quiet m) (hf : ∀ a, Relates Q Quiet (f a)) :
    Relates Q Quiet (m >>= f) := Relates.bind (R := Quiet) (fun _ _ _ => Quiet.trans) h hf
theorem qp {α : Type} (a : α) : Relates Q Quiet (Pure.pure a : M Parser α) := Relates.pure Quiet.refl a
theorem qg : Relates Q Quiet (M.get : M Parser Parser) := Relates.get Quiet.refl
theorem qm {f : Parser → Parser} (h : ∀ s, Quiet s (f s)) : Relates Q Quiet (M.modify f) := Relates.modify h

/-- a member other than the reader and `eof_` is set -/
theorem quiet_same {s t : Parser} (h : t.rd = s.rd) (h' : t.eof = s.eof) : Quiet s t := ⟨h ▸ Reader.Still.refl _, h'⟩

theorem quiet_clearError (c : Cfg) : Relates Q Quiet (clearError c) := qm fun _ => quiet_same rfl rfl

theorem quiet_handleError (c : Cfg) (m : Bytes) : Relates (c.mode = .throw) Quiet (handleError c m) := by
  unfold handleError
  cases c.mode
  · exact qm fun _ => quiet_same rfl rfl
  · exact qm fun _ => quiet_same rfl rfl
  · exact Relates.throw rfl Quiet.refl _

theorem quiet_handleErrorInvalidConversion (x : Ctx) : Relates Q Quiet (handleErrorInvalidConversion x) := qm fun _ => quiet_same rfl rfl

theorem quiet_decorateRethrow {α : Type} (x : Ctx) (e : Bytes) : Relates True Quiet (decorateRethrow x e : M Parser α) :=
  ⟨fun _ _ _ h => (by cases h), fun s _ _ h => (by cases h; exact Quiet.refl _), fun _ _ _ _ => trivial⟩

theorem quiet_onRd {α : Type} {m : M Reader α} (h : Relates Q Reader.Still m) : Relates Q Quiet (onRd m) := by
  constructor
  · intro s a s' hs
    unfold onRd at hs
    cases hm : m s.rd with
    | ok b r => rw [hm] at hs; cases hs; exact ⟨h.ok _ _ _ hm, rfl⟩
    | exc e r => rw [hm] at hs; cases hs
    | ub => rw [hm] at hs; cases hs
    | nofuel => rw [hm] at hs; cases hs
  · intro s a s' hs
    unfold onRd at hs
    cases hm : m s.rd with
    | ok b r => rw [hm] at hs; cases hs
    | exc e r => rw [hm] at hs; cases hs; exact ⟨h.exc _ _ _ hm, rfl⟩
    | ub => rw [hm] at hs; cases hs
    | nofuel => rw [hm] at hs; cases hs
  · intro s a s' hs
    unfold onRd at hs
    cases hm : m s.rd with
    | ok b r => rw [hm] at hs; cases hs
    | exc e r => exact h.thr _ _ _ hm
    | ub => rw [hm] at hs; cases hs
    | nofuel => rw [hm] at hs; cases hs

theorem quiet_onCur {α : Type} {m : M Conv α} (h : Conv.Keeping Q m) : Relates Q Quiet (onCur m) := by
  constructor
  · intro s a s' hs
    unfold onCur at hs
    cases hm : m s.rd.cur.conv with
    | ok b cv =>
      rw [hm] at hs; cases hs
      exact ⟨⟨rfl, rfl, rfl, rfl, rfl, rfl, ⟨(h.ok _ _ _ hm).1, rfl⟩, ⟨rfl, rfl⟩, ⟨rfl, rfl⟩⟩, rfl⟩
    | exc e cv => rw [hm] at hs; cases hs
    | ub => rw [hm] at hs; cases hs
    | nofuel => rw [hm] at hs; cases hs
  · intro s a s' hs
    unfold onCur at hs
    cases hm : m s.rd.cur.conv with
    | ok b cv => rw [hm] at hs; cases hs
    | exc e cv =>
      rw [hm] at hs; cases hs
      exact ⟨⟨rfl, rfl, rfl, rfl, rfl, rfl, ⟨(h.exc _ _ _ hm).1, rfl⟩, ⟨rfl, rfl⟩, ⟨rfl, rfl⟩⟩, rfl⟩
    | ub => rw [hm] at hs; cases hs
    | nofuel => rw [hm] at hs; cases hs
  · intro s a s' hs
    unfold onCur at hs
    cases hm : m s.rd.cur.conv with
    | ok b cv => rw [hm] at hs; cases hs
    | exc e cv => exact h.thr _ _ _ hm
    | ub => rw [hm] at hs; cases hs
    | nofuel => rw [hm] at hs; cases hs

/-- an operation of the reader -/
theorem ext_onRd {α : Type} {x : Ctx} {D E : Reader → Prop} {m m' : M Reader α} (h : (Reader.world x).Ext D E m m') :
    (world x).Ext (fun s => D s.rd) (fun s => E s.rd) (onRd m) (onRd m') := by
  constructor
  · intro s hs a t ht
    unfold onRd at ht
    cases hm : m s.rd with
    | ok b r =>
      rw [hm] at ht; cases ht
      obtain ⟨i1, i2, i3⟩ := h.ok _ hs.1 _ _ hm
      refine ⟨⟨i1, fun e => (Reader.world x).stayP _ _ i2 (hs.2 e)⟩, i2, i3.imp_left fun i3 => ?_⟩
      unfold onRd; rw [i3]
    | exc e r => rw [hm] at ht; cases ht
    | ub => rw [hm] at ht; cases ht
    | nofuel => rw [hm] at ht; cases ht
  · intro s hs a t ht
    unfold onRd at ht
    cases hm : m s.rd with
    | exc b r =>
      rw [hm] at ht; cases ht
      obtain ⟨i1, i2, i3⟩ := h.exc _ hs.1 _ _ hm
      refine ⟨⟨i1, fun e => (Reader.world x).stayP _ _ i2 (hs.2 e)⟩, i2, i3.imp_left fun i3 => ?_⟩
      unfold onRd; rw [i3]
    | ok e r => rw [hm] at ht; cases ht
    | ub => rw [hm] at ht; cases ht
    | nofuel => rw [hm] at ht; cases ht

theorem readLine_inv {x : Ctx} {s t : Parser} {u : Unit} (h : readLine x s = .ok u t) :
    ∃ b r, Reader.readNext x s.rd = .ok b r ∧ t = { s with rd := r, eof := !b } := by
  obtain ⟨b, s1, h1, h2⟩ := bind_ok_inv h
  unfold onRd at h1
  cases hm : Reader.readNext x s.rd with
  | ok b' r => rw [hm] at h1; cases h1; cases h2; exact ⟨_, _, rfl, rfl⟩
  | exc e r => rw [hm] at h1; cases h1
  | ub => rw [hm] at h1; cases h1
  | nofuel => rw [hm] at h1; cases h1

theorem noexc_readLine (x : Ctx) : NoExc (readLine x) := by
  refine NoExc.bind ⟨fun s e s' h => ?_⟩ fun _ => NoExc.modify _
  unfold onRd at h
  cases hm : Reader.readNext x s.rd with
  | ok b' r => rw [hm] at h; cases h
  | exc e r => exact (Reader.noexc_readNext x).no _ _ _ hm
  | ub => rw [hm] at h; cases h
  | nofuel => rw [hm] at h; cases h

section
variable {x : Ctx} {src' : Src} (hg : x.src.Grown src') (hf : x.src.Fine)
include hg hf

/-- `read_line`: one more line, or the end is passed -/
theorem ext_readLine : (world x).Ext (world x).P (world x).P (readLine x) (readLine { x with src := src' }) := by
  constructor
  · intro s hs u t h
    obtain ⟨b, r, h1, rfl⟩ := readLine_inv h
    obtain ⟨i1, i2, i3⟩ := (Reader.ext_readNext hg hf).ok _ hs.1 _ _ h1
    refine ⟨⟨i1, fun e => ?_⟩, i2, ?_⟩
    · have : b = false := by simpa using e
      subst this
      exact Reader.readNext_false hg hf hs.1 h1
    · refine i3.imp_left fun i3 => ?_
      unfold readLine
      have : onRd (Reader.readNext { x with src := src' }) s = .ok b { s with rd := r } := by unfold onRd; rw [i3]
      rw [M.bind_of_ok this]; rfl
  · intro s hs e t h
    exact absurd h ((noexc_readLine x).no _ _ _)

theorem leads_readLine (E : Parser → Prop) : (world x).Leads (world x).T (world x).P E (readLine x) := by
  constructor
  · intro s hs hT u t h
    obtain ⟨b, r, h1, rfl⟩ := readLine_inv h
    exact (Reader.leads_readNext hg hf (fun _ => True)).ok _ hs.1 hT _ _ h1
  · intro s hs _ e t h
    exact absurd h ((noexc_readLine x).no _ _ _)

/-- `read_line` and something in which the input plays no part -/
theorem ext_readLine_then {α : Type} {f : Unit → M Parser α} (h : ∀ u, Relates Q Quiet (f u)) :
    (world x).Ext (world x).P (world x).P (readLine x >>= f) (readLine { x with src := src' } >>= f) :=
  World.Ext.bindP (ext_readLine hg hf) fun u => ext_quiet (h u)

theorem leads_readLine_then {α : Type} {f : Unit → M Parser α} (h : ∀ u, Relates Q Quiet (f u)) :
    (world x).Leads (world x).T (world x).P (world x).P (readLine x >>= f) := by
  have key : ∀ s u s1, (world x).I s → (world x).T s → readLine x s = .ok u s1 → (world x).I s1 ∧ (world x).P s1 :=
    fun s u s1 hs hT h1 => ⟨((ext_readLine hg hf).ok s hs _ _ h1).1, (leads_readLine hg hf (fun _ => True)).ok _ hs hT _ _ h1⟩
  constructor
  · intro s hs hT a t ht
    obtain ⟨u, s1, h1, h2⟩ := bind_ok_inv ht
    obtain ⟨k1, k2⟩ := key s u s1 hs hT h1
    exact (world x).stayP _ _ (((h u).ok _ _ _ h2).step k1).2 k2
  · intro s hs hT e t ht
    rw [M.bind_apply] at ht
    cases h1 : readLine x s with
    | ok u s1 =>
      rw [h1] at ht
      obtain ⟨k1, k2⟩ := key s u s1 hs hT h1
      exact (world x).stayP _ _ (((h u).exc _ _ _ ht).step k1).2 k2
    | exc e1 s1 => exact absurd h1 ((noexc_readLine x).no _ _ _)
    | ub => rw [h1] at ht; cases ht
    | nofuel => rw [h1] at ht; cases ht

end

theorem leads_then {α β : Type} {x : Ctx} {m : M Parser α} {f : α → M Parser β} {D E D' E' : Parser → Prop} (h : (world x).Ext D' E' m m)
    (hm : NoExc m) (hf : ∀ a, (world x).Leads (world x).T D E (f a)) : (world x).Leads (world x).T D E (m >>= f) := by
  constructor
  · intro s hs hT b t ht
    obtain ⟨a, s1, h1, h2⟩ := bind_ok_inv ht
    obtain ⟨k1, k2, _⟩ := h.ok _ hs _ _ h1
    exact (hf a).ok _ k1 ((world x).stayT _ _ k2 hT) _ _ h2
  · intro s hs hT e t ht
    rw [M.bind_apply] at ht
    cases h1 : m s with
    | ok a s1 =>
      rw [h1] at ht
      obtain ⟨k1, k2, _⟩ := h.ok _ hs _ _ h1
      exact (hf a).exc _ k1 ((world x).stayT _ _ k2 hT) _ _ ht
    | exc e1 s1 => exact absurd h1 (hm.no _ _ _)
    | ub => rw [h1] at ht; cases ht
    | nofuel => rw [h1] at ht; cases ht

theorem leads_quiet_then {α β : Type} {x : Ctx} {m : M Parser α} {f : α → M Parser β} {D E : Parser → Prop} (h : Relates Q Quiet m)
    (hm : NoExc m) (hf : ∀ a, (world x).Leads (world x).T D E (f a)) : (world x).Leads (world x).T D E (m >>= f) :=
  leads_then (D' := D) (E' := E) (ext_quiet h) hm hf

/-- `try { m } catch (const ss::exception& e) { h(e) }` -/
theorem ext_tryCatch {α : Type} {x : Ctx} {D : Parser → Prop} {m m' : M Parser α} {h h' : Bytes → M Parser α}
    (hm : (world x).Ext D (world x).T m m') (hh : ∀ e, (world x).Ext D (world x).P (h e) (h' e))
    (hl : ∀ e, (world x).Leads (world x).T D (world x).P (h e)) : (world x).Ext D (world x).P (tryCatch m h) (tryCatch m' h') := by
  constructor
  · intro s hs a t ht
    unfold tryCatch at ht
    cases h1 : m s with
    | ok b s1 =>
      rw [h1] at ht
      cases ht
      obtain ⟨i1, i2, i3⟩ := hm.ok _ hs _ _ h1
      refine ⟨i1, i2, i3.imp_left fun i3 => ?_⟩
      unfold tryCatch; rw [i3]
    | exc e s1 =>
      rw [h1] at ht
      obtain ⟨i1, i2, i3⟩ := hm.exc _ hs _ _ h1
      obtain ⟨j1, j2, j3⟩ := (hh e).ok _ i1 _ _ ht
      refine ⟨j1, (world x).trans _ _ _ i2 j2, ?_⟩
      rcases i3 with i3 | i3
      · refine j3.imp_left fun j3 => ?_
        unfold tryCatch; rw [i3]; exact j3
      · exact .inr ((hl e).ok _ i1 i3 _ _ ht)
    | ub => rw [h1] at ht; cases ht
    | nofuel => rw [h1] at ht; cases ht
  · intro s hs a t ht
    unfold tryCatch at ht
    cases h1 : m s with
    | ok b s1 => rw [h1] at ht; cases ht
    | exc e s1 =>
      rw [h1] at ht
      obtain ⟨i1, i2, i3⟩ := hm.exc _ hs _ _ h1
      obtain ⟨j1, j2, j3⟩ := (hh e).exc _ i1 _ _ ht
      refine ⟨j1, (world x).trans _ _ _ i2 j2, ?_⟩
      rcases i3 with i3 | i3
      · refine j3.imp_left fun j3 => ?_
        unfold tryCatch; rw [i3]; exact j3
      · exact .inr ((hl e).exc _ i1 i3 _ _ ht)
    | ub => rw [h1] at ht; cases ht
    | nofuel => rw [h1] at ht; cases ht


theorem _root_.Ssp.World.Ext.mono {σ α : Type} {w : World σ} {D E D' E' : σ → Prop} {m m' : M σ α} (h : w.Ext D E m m')
    (hD : ∀ s, D s → D' s) (hE : ∀ s, E s → E' s) : w.Ext D' E' m m' :=
  ⟨fun s hs a t ht => ⟨(h.ok s hs a t ht).1, (h.ok s hs a t ht).2.1, (h.ok s hs a t ht).2.2.imp_right (hD _)⟩,
    fun s hs a t ht => ⟨(h.exc s hs a t ht).1, (h.exc s hs a t ht).2.1, (h.exc s hs a t ht).2.2.imp_right (hE _)⟩⟩

theorem _root_.Ssp.World.Leads.mono {σ α : Type} {w : World σ} {D D' E D2 E2 : σ → Prop} {m : M σ α} (h : w.Leads D D' E m)
    (hD : ∀ s, D' s → D2 s) (hE : ∀ s, E s → E2 s) : w.Leads D D2 E2 m :=
  ⟨fun s hs d a t ht => hD _ (h.ok s hs d a t ht), fun s hs d a t ht => hE _ (h.exc s hs d a t ht)⟩

theorem _root_.Ssp.World.Ext.noexc {σ α : Type} {w : World σ} {D E E' : σ → Prop} {m m' : M σ α} (h : w.Ext D E m m') (hn : NoExc m) :
    w.Ext D E' m m' := ⟨h.ok, fun s _ e t ht => absurd ht (hn.no s e t)⟩

theorem noexc_onRd {α : Type} {m : M Reader α} (h : NoExc m) : NoExc (onRd m) := by
  refine ⟨fun s e s' hs => ?_⟩
  unfold onRd at hs
  cases hm : m s.rd with
  | ok b r => rw [hm] at hs; cases hs
  | exc e r => exact h.no _ _ _ hm
  | ub => rw [hm] at hs; cases hs
  | nofuel => rw [hm] at hs; cases hs

section
variable {x : Ctx} {src' : Src} (hg : x.src.Grown src') (hf : x.src.Fine)
include hg hf

theorem ext_parseRow : (world x).Ext (world x).T (world x).P (parseRow x) (parseRow { x with src := src' }) := by
  have hp : (world x).Ext (world x).T (world x).T (onRd (Reader.parse x)) (onRd (Reader.parse { x with src := src' })) :=
    ext_onRd (Reader.ext_parse hg hf)
  have hno := fun hm => noexc_onRd (Reader.noexc_parse x hm)
  unfold parseRow
  dsimp only
  cases hm : x.cfg.mode
  · exact hp.noexc (hno (by simp [hm]))
  · exact hp.noexc (hno (by simp [hm]))
  · refine ext_tryCatch hp (fun e => ?_) (fun e => ?_)
    · exact (ext_readLine_then hg hf fun _ => quiet_decorateRethrow x e).mono (fun _ => (world x).weak _) (fun _ h => h)
    · exact (leads_readLine_then hg hf fun _ => quiet_decorateRethrow x e).mono (fun _ => (world x).weak _) (fun _ h => h)

theorem ext_parseRowIf : (world x).Ext (world x).T (world x).P (parseRowIf x) (parseRowIf { x with src := src' }) := by
  constructor
  · intro s hs a t ht
    unfold parseRowIf at ht
    unfold parseRowIf
    by_cases he : s.eof = true
    · rw [if_pos he] at ht ⊢; cases ht; exact ⟨hs, (world x).refl _, .inl rfl⟩
    · rw [if_neg he] at ht ⊢; exact (ext_parseRow hg hf).ok s hs a t ht
  · intro s hs a t ht
    unfold parseRowIf at ht
    unfold parseRowIf
    by_cases he : s.eof = true
    · rw [if_pos he] at ht; cases ht
    · rw [if_neg he] at ht ⊢; exact (ext_parseRow hg hf).exc s hs a t ht

/-- converting, storing the error and reading the next line -/
theorem ext_convertRow (rs : List Req) :
    (world x).Ext (world x).P (world x).P (convertRow x rs) (convertRow { x with src := src' } rs) ∧
    (world x).Leads (world x).T (world x).P (world x).P (convertRow x rs) := by
  have hq := quiet_onCur (Conv.keep_convertCached x.cfg rs)
  have hrest : ∀ (v : List Val), Relates (x.cfg.mode = .throw) Quiet (do
      let s ← M.get
      (if Conv.valid x.cfg s.rd.cur.conv then pure () else handleErrorInvalidConversion x)) :=
    fun v => qb qg fun s => Relates.ite (qp _) (quiet_handleErrorInvalidConversion x)
  have hsome : ∀ (h : ¬ x.cfg.mode = .throw), (world x).Ext (world x).P (world x).P
      (onCur (Conv.convertCached x.cfg rs) >>= fun v => M.get >>= fun s =>
        (if Conv.valid x.cfg s.rd.cur.conv then pure () else handleErrorInvalidConversion x) >>= fun _ => readLine x >>= fun _ => pure v)
      (onCur (Conv.convertCached x.cfg rs) >>= fun v => M.get >>= fun s =>
        (if Conv.valid x.cfg s.rd.cur.conv then pure () else handleErrorInvalidConversion x) >>= fun _ =>
          readLine { x with src := src' } >>= fun _ => pure v) ∧
      (world x).Leads (world x).T (world x).P (world x).P
      (onCur (Conv.convertCached x.cfg rs) >>= fun v => M.get >>= fun s =>
        (if Conv.valid x.cfg s.rd.cur.conv then pure () else handleErrorInvalidConversion x) >>= fun _ => readLine x >>= fun _ => pure v) := by
    intro h
    refine ⟨World.Ext.bindP (ext_quiet hq) fun v => World.Ext.bindP World.Ext.get fun s => World.Ext.bindP
      (ext_quiet (Relates.ite (qp _) (quiet_handleErrorInvalidConversion (Q := True) x))) fun _ => ext_readLine_then hg hf fun _ => qp (Q := True) _, ?_⟩
    refine leads_quiet_then hq (hq.noexc h) fun v => leads_quiet_then (qg (Q := False)) NoExc.get fun s => leads_quiet_then
      (Relates.ite (qp _) (quiet_handleErrorInvalidConversion (Q := False) x)) (NoExc.ite (NoExc.pure _) (NoExc.modify _)) fun _ =>
      leads_readLine_then hg hf fun _ => qp (Q := True) _
  unfold convertRow
  dsimp only
  cases hm : x.cfg.mode
  · exact hsome (by simp [hm])
  · exact hsome (by simp [hm])
  · dsimp only
    have hin : (world x).Ext (world x).P (world x).T
        (onCur (Conv.convertCached x.cfg rs) >>= fun v => readLine x >>= fun _ => pure v)
        (onCur (Conv.convertCached x.cfg rs) >>= fun v => readLine { x with src := src' } >>= fun _ => pure v) := by
      refine World.Ext.bind (D := (world x).T) (ext_quiet hq) (fun v => ?_) (fun v => ?_)
      · exact (ext_readLine_then hg hf fun _ => qp (Q := True) _).mono (fun _ h => h) (fun _ => (world x).weak _)
      · exact (leads_readLine_then hg hf fun _ => qp (Q := True) _).mono (fun _ h => h) (fun _ => (world x).weak _)
    refine ⟨ext_tryCatch hin (fun e => ext_readLine_then hg hf fun _ => quiet_decorateRethrow x e)
      (fun e => leads_readLine_then hg hf fun _ => quiet_decorateRethrow x e), ?_⟩
    have hcv : ∀ s, (world x).I s → (world x).T s →
        (∀ a t, (onCur (Conv.convertCached x.cfg rs) >>= fun v => readLine x >>= fun _ => (pure v : M Parser (List Val))) s = .ok a t →
          (world x).P t) ∧
        (∀ e t, (onCur (Conv.convertCached x.cfg rs) >>= fun v => readLine x >>= fun _ => (pure v : M Parser (List Val))) s = .exc e t →
          (world x).T t) := by
      intro s hs hT
      refine ⟨fun a t ht => ?_, fun e t ht => (world x).stayT _ _ (hin.exc s hs e t ht).2.1 hT⟩
      obtain ⟨v, s1, h1, h2⟩ := bind_ok_inv ht
      obtain ⟨k1, k2⟩ := (hq.ok _ _ _ h1).step hs
      exact (leads_readLine_then hg hf fun _ => qp (Q := True) _).ok _ k1 ((world x).stayT _ _ k2 hT) _ _ h2
    constructor
    · intro s hs hT a t ht
      unfold tryCatch at ht
      cases h1 : (onCur (Conv.convertCached x.cfg rs) >>= fun v => readLine x >>= fun _ => (pure v : M Parser (List Val))) s with
      | ok b s1 => rw [h1] at ht; cases ht; exact (hcv s hs hT).1 _ _ h1
      | exc e s1 =>
        rw [h1] at ht
        exact (leads_readLine_then hg hf fun _ => quiet_decorateRethrow x e).ok _ (hin.exc s hs e s1 h1).1 ((hcv s hs hT).2 _ _ h1) _ _ ht
      | ub => rw [h1] at ht; cases ht
      | nofuel => rw [h1] at ht; cases ht
    · intro s hs hT a t ht
      unfold tryCatch at ht
      cases h1 : (onCur (Conv.convertCached x.cfg rs) >>= fun v => readLine x >>= fun _ => (pure v : M Parser (List Val))) s with
      | ok b s1 => rw [h1] at ht; cases ht
      | exc e s1 =>
        rw [h1] at ht
        exact (leads_readLine_then hg hf fun _ => quiet_decorateRethrow x e).exc _ (hin.exc s hs e s1 h1).1 ((hcv s hs hT).2 _ _ h1) _ _ ht
      | ub => rw [h1] at ht; cases ht
      | nofuel => rw [h1] at ht; cases ht

/-- what `get_next` does with the row: the part behind `update` -/
theorem ext_afterUpdate (rs : List Req) :
    (world x).Ext (world x).P (world x).P (M.get >>= fun s => if !Conv.valid x.cfg s.rd.cur.conv then do
        handleErrorInvalidConversion x
        readLine x
        pure (Conv.defaults rs)
      else do
        clearError x.cfg
        if s.eof then
          handleError x.cfg (x.fileName ++ bs ": read on end of file")
          pure (Conv.defaults rs)
        else convertRow x rs)
      (M.get >>= fun s => if !Conv.valid x.cfg s.rd.cur.conv then do
        handleErrorInvalidConversion x
        readLine { x with src := src' }
        pure (Conv.defaults rs)
      else do
        clearError x.cfg
        if s.eof then
          handleError x.cfg (x.fileName ++ bs ": read on end of file")
          pure (Conv.defaults rs)
        else convertRow { x with src := src' } rs) ∧
    (world x).Leads (world x).T (world x).P (world x).P (M.get >>= fun s => if !Conv.valid x.cfg s.rd.cur.conv then do
        handleErrorInvalidConversion x
        readLine x
        pure (Conv.defaults rs)
      else do
        clearError x.cfg
        if s.eof then
          handleError x.cfg (x.fileName ++ bs ": read on end of file")
          pure (Conv.defaults rs)
        else convertRow x rs) := by
  have hE : Relates (x.cfg.mode = .throw) Quiet (handleError x.cfg (x.fileName ++ bs ": read on end of file") >>= fun _ =>
      (pure (Conv.defaults rs) : M Parser (List Val))) := qb (quiet_handleError _ _) fun _ => qp _
  refine ⟨World.Ext.bindP World.Ext.get fun s => World.Ext.ite ?_ ?_, ?_⟩
  · exact World.Ext.bindP (ext_quiet (quiet_handleErrorInvalidConversion (Q := True) x)) fun _ => ext_readLine_then hg hf fun _ => qp (Q := True) _
  · exact World.Ext.bindP (ext_quiet (quiet_clearError (Q := True) _)) fun _ => World.Ext.ite (ext_quiet hE) (ext_convertRow hg hf rs).1
  · have h1 : (world x).Leads (world x).T (world x).P (world x).P (do
        handleErrorInvalidConversion x
        readLine x
        pure (Conv.defaults rs)) :=
      leads_quiet_then (quiet_handleErrorInvalidConversion (Q := True) x) (NoExc.modify _) fun _ => leads_readLine_then hg hf fun _ => qp (Q := True) _
    have h2 : (world x).Leads (world x).T (world x).P (world x).P (do
        clearError x.cfg
        convertRow x rs) :=
      leads_quiet_then (quiet_clearError (Q := True) _) (NoExc.modify _) fun _ => (ext_convertRow hg hf rs).2
    have h3 : Relates (x.cfg.mode = .throw) Quiet (do
        clearError x.cfg
        handleError x.cfg (x.fileName ++ bs ": read on end of file")
        (pure (Conv.defaults rs) : M Parser (List Val))) := qb (quiet_clearError _) fun _ => hE
    constructor
    · intro s hs hT a t ht
      simp only [M.get_bind] at ht
      by_cases hv : (!Conv.valid x.cfg s.rd.cur.conv) = true
      · rw [if_pos hv] at ht; exact h1.ok s hs hT a t ht
      · rw [if_neg hv] at ht
        by_cases he : s.eof = true
        · simp only [he, if_true] at ht
          exact (world x).stayP _ _ ((h3.ok _ _ _ ht).step hs).2 (hs.2 he)
        · simp only [he] at ht; exact h2.ok s hs hT a t ht
    · intro s hs hT a t ht
      simp only [M.get_bind] at ht
      by_cases hv : (!Conv.valid x.cfg s.rd.cur.conv) = true
      · rw [if_pos hv] at ht; exact h1.exc s hs hT a t ht
      · rw [if_neg hv] at ht
        by_cases he : s.eof = true
        · simp only [he, if_true] at ht
          exact (world x).stayP _ _ ((h3.exc _ _ _ ht).step hs).2 (hs.2 he)
        · simp only [he] at ht; exact h2.exc s hs hT a t ht

theorem ext_getNext (rs : List Req) : (world x).Ext (world x).P (world x).P (getNext x rs) (getNext { x with src := src' } rs) := by
  obtain ⟨h1, h2⟩ := ext_afterUpdate hg hf rs
  have hu : (world x).Ext (world x).P (world x).P (onRd Reader.update) (onRd Reader.update) :=
    ext_onRd (D := (Reader.world x).P) (E := (Reader.world x).P) (Reader.ext_quiet (Reader.quiet_update (Q := False)))
  unfold getNext
  exact World.Ext.bind (ext_parseRowIf hg hf) (fun _ => World.Ext.bindP hu fun _ => h1)
    fun _ => leads_then hu (noexc_onRd (NoExc.modify _)) fun _ => h2

theorem ext_ignoreNext : (world x).Ext (world x).P (world x).P (ignoreNext x) (ignoreNext { x with src := src' }) :=
  ext_onRd (Reader.ext_readNext hg hf)

end

/-! ## The calls -/

theorem quiet_strictSplit (x : Ctx) : Relates True Quiet (strictSplit x) := by
  constructor
  · intro s a t h
    unfold strictSplit at h
    cases hm : Spl.split (headerCfg x) x.delim { mem := s.rawHeader ++ [NUL] } with
    | ok u sp =>
      rw [hm] at h
      dsimp only at h
      by_cases hv : sp.err.valid x.cfg.mode = true
      · rw [if_pos hv] at h; cases h; exact Quiet.refl _
      · rw [if_neg hv] at h; cases h; exact quiet_same rfl rfl
    | exc e sp => rw [hm] at h; cases h
    | ub => rw [hm] at h; cases h
    | nofuel => rw [hm] at h; cases h
  · intro s a t h
    unfold strictSplit at h
    cases hm : Spl.split (headerCfg x) x.delim { mem := s.rawHeader ++ [NUL] } with
    | ok u sp =>
      rw [hm] at h
      dsimp only at h
      by_cases hv : sp.err.valid x.cfg.mode = true
      · rw [if_pos hv] at h; cases h
      · rw [if_neg hv] at h; cases h
    | exc e sp => rw [hm] at h; cases h; exact Quiet.refl _
    | ub => rw [hm] at h; cases h
    | nofuel => rw [hm] at h; cases h
  · intros; trivial

theorem quiet_columnsOf {Q : Prop} (sp : Spl) : Relates Q Quiet (columnsOf sp) := by
  refine Relates.quiet ?_ ?_ <;> intro s a t h <;> unfold columnsOf at h <;>
    by_cases hp : ∀ p ∈ sp.data, p.1 ≤ p.2 ∧ p.2 ≤ sp.mem.length
  · rw [if_pos hp] at h; cases h; exact Quiet.refl _
  · rw [if_neg hp] at h; cases h
  · rw [if_pos hp] at h; cases h
  · rw [if_neg hp] at h; cases h

theorem Relates_weaken {σ α : Type} {Q Q' : Prop} {R : σ → σ → Prop} {m : M σ α} (h : Relates Q R m) (hq : Q → Q') : Relates Q' R m :=
  ⟨h.ok, h.exc, fun s e t ht => hq (h.thr s e t ht)⟩

theorem quiet_error (c : Cfg) (m : Bytes) : Relates True Quiet (handleError c m) := Relates_weaken (quiet_handleError c m) fun _ => trivial

theorem quiet_getHeader (x : Ctx) : Relates True Quiet (getHeader x) := by
  unfold getHeader
  refine qb (quiet_clearError _) fun _ => qb (quiet_strictSplit x) fun r => ?_
  cases r with
  | none => exact qp _
  | some sp => exact quiet_columnsOf sp

theorem quiet_addHeader (x : Ctx) : ∀ fs, Relates True Quiet (addHeader x fs)
  | [] => qp _
  | f :: fs => qb qg fun s => Relates.ite (qb (quiet_error _ _) fun _ => qm fun _ => quiet_same rfl rfl)
      (qb (qm fun _ => quiet_same rfl rfl) fun _ => quiet_addHeader x fs)

theorem quiet_splitHeaderDataIf (x : Ctx) (p : Parser → Bool) : Relates True Quiet (splitHeaderDataIf x p) := by
  have h : Relates True Quiet (splitHeaderData x) := by
    unfold splitHeaderData
    refine qb (quiet_strictSplit x) fun r => ?_
    cases r with
    | none => exact qp _
    | some sp => exact qb (quiet_columnsOf sp) fun fs => quiet_addHeader x fs
  constructor <;> intro s a t ht <;> unfold splitHeaderDataIf at ht <;> by_cases hp : p s = true
  · rw [if_pos hp] at ht; exact h.ok _ _ _ ht
  · rw [if_neg hp] at ht; cases ht; exact Quiet.refl _
  · rw [if_pos hp] at ht; exact h.exc _ _ _ ht
  · rw [if_neg hp] at ht; cases ht
  · trivial
  · trivial

theorem quiet_fieldExists (x : Ctx) (f : Bytes) : Relates True Quiet (fieldExists x f) :=
  qb (quiet_clearError _) fun _ => qb (quiet_splitHeaderDataIf x _) fun _ => qb qg fun _ => Relates.ite (qp _) (qp _)

theorem quiet_mapFields (x : Ctx) (all : List Bytes) : ∀ fs, Relates True Quiet (mapFields x all fs)
  | [] => qp _
  | f :: fs => by
    unfold mapFields
    refine Relates.ite (qb (quiet_error _ _) fun _ => qp _) (qb qg fun s => ?_)
    cases s.headerIndex f with
    | none => exact qb (quiet_error _ _) fun _ => qp _
    | some i =>
      refine qb (quiet_mapFields x all fs) fun r => ?_
      cases r with
      | none => exact qp _
      | some is => exact qp _

theorem quiet_setMapping {Q : Prop} (sel : List Nat) : Relates Q Quiet (setMapping sel) :=
  qm fun _ => ⟨⟨rfl, rfl, rfl, rfl, rfl, rfl, ⟨rfl, rfl⟩, ⟨rfl, rfl⟩, ⟨rfl, rfl⟩⟩, rfl⟩

theorem quiet_tryInvoke (x : Ctx) (v : List Val) (fn : Option (List Val → Option Bool)) : Relates True Quiet (tryInvoke x v fn) := by
  unfold tryInvoke
  cases fn with
  | none => exact qp _
  | some f =>
    dsimp only
    cases f v with
    | none => exact qp _
    | some b => cases b
                · exact qb (quiet_error _ _) fun _ => qp _
                · exact qp _

theorem quiet_orElse (x : Ctx) (a : Alt) : Relates True Quiet (orElse x a) := by
  have ht : Relates True Quiet (trySame x a.reqs) :=
    qb (quiet_clearError _) fun _ => qb (quiet_onCur (Relates_weaken' (Conv.keep_convertCached _ _))) fun v => qb qg fun s =>
      qb (Relates.ite (qp _) (quiet_handleErrorInvalidConversion x)) fun _ => qp _
  unfold orElse
  exact qb qg fun s => Relates.ite (qp _) (qb ht fun v => qb qg fun s => Relates.ite
    (qb (quiet_tryInvoke x v a.fn) fun c => qb qg fun s => qp _) (qp _))
where
  Relates_weaken' {α : Type} {Q : Prop} {R : Conv → Conv → Prop} {m : M Conv α} (h : Relates Q R m) : Relates True R m :=
    ⟨h.ok, h.exc, fun _ _ _ _ => trivial⟩

theorem quiet_orElses (x : Ctx) : ∀ as, Relates True Quiet (orElses x as)
  | [] => qp _
  | a :: as => qb (quiet_orElse x a) fun _ => qb (quiet_orElses x as) fun _ => qp _

/-! In these the input plays no part. -/

theorem addHeader_src (x : Ctx) (src' : Src) : ∀ fs, addHeader { x with src := src' } fs = addHeader x fs
  | [] => rfl
  | f :: fs => by unfold addHeader; rw [addHeader_src x src' fs]

theorem splitHeaderDataIf_src (x : Ctx) (src' : Src) (p : Parser → Bool) :
    splitHeaderDataIf { x with src := src' } p = splitHeaderDataIf x p := by
  have : splitHeaderData { x with src := src' } = splitHeaderData x := by
    unfold splitHeaderData
    simp only [addHeader_src]
    rfl
  unfold splitHeaderDataIf
  rw [this]

theorem mapFields_src (x : Ctx) (src' : Src) (all : List Bytes) : ∀ fs, mapFields { x with src := src' } all fs = mapFields x all fs
  | [] => rfl
  | f :: fs => by unfold mapFields; rw [mapFields_src x src' all fs]

theorem orElses_src (x : Ctx) (src' : Src) : ∀ as, orElses { x with src := src' } as = orElses x as
  | [] => rfl
  | a :: as => by
    unfold orElses
    rw [orElses_src x src' as]
    rfl

section
variable {x : Ctx} {src' : Src} (hg : x.src.Grown src') (hf : x.src.Fine)
include hg hf

theorem ext_useFields (fs : List Bytes) :
    (world x).Ext (world x).P (world x).P (useFields x fs) (useFields { x with src := src' } fs) := by
  unfold useFields
  rw [splitHeaderDataIf_src x src', mapFields_src x src']
  refine World.Ext.bindP (ext_quiet (quiet_clearError (Q := True) _)) fun _ => World.Ext.bindP
    (ext_quiet (quiet_splitHeaderDataIf x _)) fun _ => World.Ext.bindP World.Ext.get fun s => World.Ext.ite (World.Ext.pure _)
      (World.Ext.ite (ext_quiet (quiet_error x.cfg _)) (World.Ext.bindP (ext_quiet (quiet_mapFields x fs fs)) fun r => ?_))
  cases r with
  | none => exact World.Ext.pure _
  | some sel =>
    exact World.Ext.bindP (ext_quiet (quiet_setMapping (Q := True) sel)) fun _ => World.Ext.bindP World.Ext.get fun s => World.Ext.ite
      (World.Ext.bindP (ext_ignoreNext hg hf) fun _ => World.Ext.pure _) (World.Ext.pure _)

theorem ext_chain (a : Alt) (as : List Alt) :
    (world x).Ext (world x).P (world x).P (tryChain x a as) (tryChain { x with src := src' } a as) := by
  have h : (world x).Ext (world x).P (world x).P (tryNext x a) (tryNext { x with src := src' } a) := by
    unfold tryNext
    exact World.Ext.bindP (ext_getNext hg hf _) fun v => World.Ext.bindP World.Ext.get fun s => World.Ext.ite
      (ext_quiet (qb (quiet_tryInvoke x v a.fn) fun c => qb qg fun s => qp _)) (World.Ext.pure _)
  unfold tryChain
  rw [orElses_src x src']
  exact World.Ext.bindP h fun r => ext_quiet (qb (quiet_orElses x as) fun _ => qp _)

theorem ext_exec (op : Op) : (world x).Ext (world x).P (world x).P (op.exec x) (op.exec { x with src := src' }) := by
  cases op with
  | getNext rs => exact World.Ext.bindP (ext_getNext hg hf rs) fun v => World.Ext.bindP World.Ext.get fun s => World.Ext.pure _
  | ignoreNext => exact World.Ext.bindP (ext_ignoreNext hg hf) fun b => World.Ext.pure _
  | header => exact World.Ext.bindP (ext_quiet (quiet_getHeader x)) fun b => World.Ext.pure _
  | rawHeader => exact World.Ext.bindP World.Ext.get fun s => World.Ext.pure _
  | fieldExists f =>
    have : fieldExists { x with src := src' } f = fieldExists x f := by unfold fieldExists; rw [splitHeaderDataIf_src x src']
    unfold Op.exec
    dsimp only
    rw [this]
    exact World.Ext.bindP (ext_quiet (quiet_fieldExists x f)) fun b => World.Ext.pure _
  | useFields fs => exact World.Ext.bindP (ext_useFields hg hf fs) fun _ => World.Ext.pure _
  | chain a as => exact World.Ext.bindP World.Ext.get fun s => World.Ext.ite (World.Ext.pure _)
                    (World.Ext.bindP (ext_chain hg hf a as) fun _ => World.Ext.pure _)

theorem ext_firstLine : (world x).Ext (world x).P (world x).P (firstLine x) (firstLine { x with src := src' }) := by
  unfold firstLine
  refine World.Ext.bindP (ext_readLine hg hf) fun _ => World.Ext.ite (World.Ext.bindP (ext_ignoreNext hg hf) fun _ => World.Ext.pure _) ?_
  exact World.Ext.bindP (ext_quiet (quiet_onRd (Reader.still_getBuffer (Q := True)))) fun b => ext_quiet (qm (Q := True) fun _ => quiet_same rfl rfl)

theorem step_grow {op : Op} {s s' : Parser} {o : Obs} (hi : (world x).I s) (h : step x op s = some (o, s')) :
    (world x).I s' ∧ (world x).S s s' ∧ (step { x with src := src' } op s = some (o, s') ∨ (world x).P s') := by
  unfold step at h
  cases hm : op.exec x s with
  | ok r t =>
    rw [hm] at h
    cases h
    obtain ⟨h1, h2, h3⟩ := (ext_exec hg hf op).ok s hi _ _ hm
    refine ⟨h1, h2, h3.imp_left fun h3 => ?_⟩
    unfold step; rw [h3]; rfl
  | exc e t =>
    rw [hm] at h
    cases h
    obtain ⟨h1, h2, h3⟩ := (ext_exec hg hf op).exc s hi _ _ hm
    refine ⟨h1, h2, h3.imp_left fun h3 => ?_⟩
    unfold step; rw [h3]; rfl
  | ub => rw [hm] at h; cases h
  | nofuel => rw [hm] at h; cases h

theorem run_grow : ∀ (ops : List Op) {s s' : Parser} {os : List Obs}, (world x).I s → run x ops s = some (os, s') →
    (world x).I s' ∧ (world x).S s s' ∧ (run { x with src := src' } ops s = some (os, s') ∨ (world x).P s')
  | [], s, s', os, hi, h => by cases h; exact ⟨hi, (world x).refl _, .inl rfl⟩
  | op :: ops, s, s', os, hi, h => by
    unfold run at h
    cases hs : step x op s with
    | none => rw [hs] at h; cases h
    | some p =>
      obtain ⟨o, s1⟩ := p
      rw [hs] at h
      dsimp only at h
      cases hr : run x ops s1 with
      | none => rw [hr] at h; cases h
      | some q =>
        obtain ⟨os1, s2⟩ := q
        rw [hr] at h
        cases h
        obtain ⟨a1, a2, a3⟩ := step_grow hg hf hi hs
        obtain ⟨b1, b2, b3⟩ := run_grow ops a1 hr
        refine ⟨b1, (world x).trans _ _ _ a2 b2, ?_⟩
        rcases a3 with a3 | a3
        · refine b3.imp_left fun b3 => ?_
          unfold run
          rw [a3]
          dsimp only
          rw [b3]
        · exact .inr ((world x).stayP _ _ b2 a3)

end

end Parser
end Ssp
