import Verif.Proofs.MachineChars
import Verif.Proofs.MachineRun
/-!
# The calls of the row machine with other match characters
-/
namespace Ssp
open Spec

/-- everything read so far and later consists of characters of which the setups make the same -/
structure PlainM (x : Ctx) (c' : Cfg) (t : Mach) : Prop where
  rd : Plain x c' t.rd
  raw : AgreeIn x.cfg c' t.rawHeader

section
variable {x : Ctx} {q : Option Byte} {e l r : List Byte}

local notation "y" => Ctx.withChars x q e l r
local notation "PL" => Plain x (Ctx.cfg (Ctx.withChars x q e l r))
local notation "PM" => PlainM x (Ctx.cfg (Ctx.withChars x q e l r))
local notation "AG" => AgreeIn (Ctx.cfg x) (Ctx.cfg (Ctx.withChars x q e l r))

theorem onRd_both {α : Type} {m m' : M MRd α} {t : Mach} (hm : m' t.rd = m t.rd ∧ Part PL (m t.rd)) (h : PM t) :
    Mach.onRd m' t = Mach.onRd m t ∧ Part PM (Mach.onRd m t) := by
  have h2 := hm.2
  unfold Mach.onRd
  rw [hm.1]
  refine ⟨rfl, ?_⟩
  cases hr : m t.rd with
  | ok v a => rw [hr] at h2; exact ⟨h2, h.raw⟩
  | exc e a => rw [hr] at h2; exact ⟨h2, h.raw⟩
  | ub => trivial
  | nofuel => trivial

theorem readLine_both {t : Mach} (h : PM t) : Mach.readLine (y) t = Mach.readLine x t ∧ Part PM (Mach.readLine x t) :=
  bind_both (onRd_both ⟨rfl, readNext_plain h.rd⟩ h) fun _ _ h => same_both (Part.modify ⟨h.rd, h.raw⟩)

theorem handleError_plain {c : Cfg} {m : Bytes} {t : Mach} (h : PM t) : Part PM (Mach.handleError c m t) := by
  unfold Mach.handleError
  cases c.mode <;> first | exact h | exact ⟨h.rd, h.raw⟩

theorem handleError_both {m : Bytes} {t : Mach} (h : PM t) :
    Mach.handleError (y).cfg m t = Mach.handleError x.cfg m t ∧ Part PM (Mach.handleError x.cfg m t) := ⟨rfl, handleError_plain h⟩
theorem hic_both {t : Mach} (h : PM t) : Mach.handleErrorInvalidConversion (y) t = Mach.handleErrorInvalidConversion x t ∧
    Part PM (Mach.handleErrorInvalidConversion x t) := ⟨rfl, h.rd, h.raw⟩
theorem clearError_both {t : Mach} (h : PM t) : Mach.clearError (y).cfg t = Mach.clearError x.cfg t ∧
    Part PM (Mach.clearError x.cfg t) := ⟨rfl, h.rd, h.raw⟩

theorem tryCatch_both {α : Type} {m m' : M Mach α} {f f' : Bytes → M Mach α} {t : Mach} (h : m' t = m t ∧ Part PM (m t))
    (hf : ∀ e t, PM t → f' e t = f e t ∧ Part PM (f e t)) : Mach.tryCatch m' f' t = Mach.tryCatch m f t ∧ Part PM (Mach.tryCatch m f t) := by
  have h2 := h.2
  unfold Mach.tryCatch
  rw [h.1]
  cases hm : m t with
  | ok v a => rw [hm] at h2; exact ⟨rfl, h2⟩
  | exc e a => rw [hm] at h2; exact hf e a h2
  | ub => exact ⟨rfl, trivial⟩
  | nofuel => exact ⟨rfl, trivial⟩

theorem rethrow_both {α : Type} {e' : Bytes} {t : Mach} (h : PM t) :
    (Mach.readLine (y) >>= fun _ => (Mach.decorateRethrow (y) e' : M Mach α)) t = (Mach.readLine x >>= fun _ => (Mach.decorateRethrow x e' : M Mach α)) t ∧
    Part PM ((Mach.readLine x >>= fun _ => (Mach.decorateRethrow x e' : M Mach α)) t) :=
  bind_both (readLine_both h) fun _ _ h => ⟨rfl, h⟩

theorem convertCur_plain {c : Cfg} {rs : List Req} {a : MRd} (h : PL a) : Part PL (MRd.convertCur c rs a) := by
  unfold MRd.convertCur
  simp only
  split
  · exact same_plain h rfl rfl
  · split
    · trivial
    · split
      · exact same_plain h rfl rfl
      · split <;> exact same_plain h rfl rfl

theorem convertCur_both {rs : List Req} {t : Mach} (h : PM t) : Mach.onRd (MRd.convertCur (y).cfg rs) t = Mach.onRd (MRd.convertCur x.cfg rs) t ∧
    Part PM (Mach.onRd (MRd.convertCur x.cfg rs) t) := onRd_both ⟨rfl, convertCur_plain h.rd⟩ h

theorem parseRowIf_both (hd : x.delim ≠ []) {t : Mach} (h : PM t) : Mach.parseRowIf (y) t = Mach.parseRowIf x t ∧ Part PM (Mach.parseRowIf x t) := by
  have hp := onRd_both (parse_both hd h.rd) h
  unfold Mach.parseRowIf
  split
  · exact ⟨rfl, h⟩
  · unfold Mach.parseRow
    have hmode : (y).cfg.mode = x.cfg.mode := rfl
    rw [hmode]
    cases x.cfg.mode with
    | throw => exact tryCatch_both hp fun e t h => rethrow_both h
    | string => exact hp
    | bool => exact hp

theorem convertRow_both {rs : List Req} {t : Mach} (h : PM t) :
    Mach.convertRow (y) rs t = Mach.convertRow x rs t ∧ Part PM (Mach.convertRow x rs t) := by
  have hnt : (do
        let v ← Mach.onRd (MRd.convertCur (y).cfg rs)
        let s ← M.get
        (if s.rd.cur.err.valid (y).cfg.mode then pure () else Mach.handleErrorInvalidConversion (y))
        Mach.readLine (y)
        pure v : M Mach (Option (List Val))) t = (do
        let v ← Mach.onRd (MRd.convertCur x.cfg rs)
        let s ← M.get
        (if s.rd.cur.err.valid x.cfg.mode then pure () else Mach.handleErrorInvalidConversion x)
        Mach.readLine x
        pure v : M Mach (Option (List Val))) t ∧ Part PM ((do
        let v ← Mach.onRd (MRd.convertCur x.cfg rs)
        let s ← M.get
        (if s.rd.cur.err.valid x.cfg.mode then pure () else Mach.handleErrorInvalidConversion x)
        Mach.readLine x
        pure v : M Mach (Option (List Val))) t) := by
    refine bind_both (convertCur_both h) fun _ _ h => ?_
    refine bind_both (get_both h) fun s _ h => ?_
    refine bind_both (ite_both (fun _ => same_both h) fun _ => hic_both h) fun _ _ h => ?_
    exact bind_both (readLine_both h) fun _ _ h => same_both h
  unfold Mach.convertRow
  have hmode' : (y).cfg.mode = x.cfg.mode := rfl
  rw [hmode']
  cases hmode : x.cfg.mode with
  | throw =>
    refine tryCatch_both ?_ fun e t h => rethrow_both h
    exact bind_both (convertCur_both h) fun _ _ h => bind_both (readLine_both h) fun _ _ h => same_both h
  | string =>
    rw [hmode', hmode] at hnt; exact hnt
  | bool =>
    rw [hmode', hmode] at hnt; exact hnt

theorem getNext_both (hd : x.delim ≠ []) {rs : List Req} {t : Mach} (h : PM t) :
    Mach.getNext (y) rs t = Mach.getNext x rs t ∧ Part PM (Mach.getNext x rs t) := by
  unfold Mach.getNext
  refine bind_both (parseRowIf_both hd h) fun _ _ h => ?_
  refine bind_both (onRd_both (m := MRd.update) ⟨rfl, same_plain h.rd rfl rfl⟩ h) fun _ _ h => ?_
  refine bind_both (get_both h) fun s _ h => ite_both (fun _ => ?_) fun _ => ?_
  · exact bind_both (hic_both h) fun _ _ h => bind_both (readLine_both h) fun _ _ h => same_both h
  · refine bind_both (clearError_both h) fun _ _ h => ite_both (fun _ => ?_) fun _ => convertRow_both h
    exact bind_both (handleError_both h) fun _ _ h => same_both h

theorem tryInvoke_both {o : Option (List Val)} {fn : Option (List Val → Option Bool)} {t : Mach} (h : PM t) :
    Mach.tryInvoke (y) o fn t = Mach.tryInvoke x o fn t ∧ Part PM (Mach.tryInvoke x o fn t) := by
  unfold Mach.tryInvoke
  cases fn with
  | none => exact same_both h
  | some f =>
    cases o with
    | none => exact ⟨rfl, trivial⟩
    | some v =>
      simp only
      rcases f v with _ | _ | _
      · exact same_both h
      · exact bind_both (handleError_both h) fun _ _ h => same_both h
      · exact same_both h

theorem optional_both {b : Bool} {o : Option (List Val)} {t : Mach} (h : PM t) :
    Mach.optional b o t = Mach.optional b o t ∧ Part PM (Mach.optional b o t) := by
  refine ⟨rfl, ?_⟩
  unfold Mach.optional
  split
  · split
    · trivial
    · exact h
  · exact h

theorem tryNext_both (hd : x.delim ≠ []) {a : Parser.Alt} {t : Mach} (h : PM t) :
    Mach.tryNext (y) a t = Mach.tryNext x a t ∧ Part PM (Mach.tryNext x a t) := by
  unfold Mach.tryNext
  refine bind_both (getNext_both hd h) fun v _ h => bind_both (get_both h) fun s _ h => ite_both (fun _ => ?_) fun _ => same_both h
  exact bind_both (tryInvoke_both h) fun _ _ h => bind_both (get_both h) fun s _ h =>
    bind_both (optional_both h) fun _ _ h => same_both h

theorem orElse_both {a : Parser.Alt} {t : Mach} (h : PM t) : Mach.orElse (y) a t = Mach.orElse x a t ∧ Part PM (Mach.orElse x a t) := by
  unfold Mach.orElse
  refine bind_both (get_both h) fun s _ h => ite_both (fun _ => same_both h) fun _ => ?_
  refine bind_both ?_ fun v _ h => bind_both (get_both h) fun s _ h => ite_both (fun _ => ?_) fun _ => same_both h
  · unfold Mach.trySame
    refine bind_both (clearError_both h) fun _ _ h => ?_
    refine bind_both (convertCur_both h) fun _ _ h => ?_
    refine bind_both (get_both h) fun s _ h => ?_
    exact bind_both (ite_both (fun _ => same_both h) fun _ => hic_both h) fun _ _ h => same_both h
  · exact bind_both (tryInvoke_both h) fun _ _ h => bind_both (get_both h) fun s _ h =>
      bind_both (optional_both h) fun _ _ h => same_both h

theorem orElses_both : ∀ (as : List Parser.Alt) {t : Mach}, PM t → Mach.orElses (y) as t = Mach.orElses x as t ∧ Part PM (Mach.orElses x as t) := by
  intro as
  induction as with
  | nil => intro t h; exact same_both h
  | cons a as ih =>
    intro t h
    unfold Mach.orElses
    exact bind_both (orElse_both h) fun _ _ h => bind_both (ih h) fun _ _ h => same_both h

/-! ## The header -/

theorem headerCfg_agree {b : Byte} (h : x.cfg.AgreeAt (y).cfg b) : (Parser.headerCfg x).AgreeAt (Parser.headerCfg (y)) b := by
  unfold Parser.headerCfg
  show (if x.wrapped then _ else _ : Cfg).AgreeAt (if x.wrapped then _ else _) b
  split
  · exact h
  · exact ⟨h.quote, h.escape, h.trimLeft, h.trimRight⟩

theorem headerCfg_endError (n : Nat) (E : End) : endError (Parser.headerCfg (y)) n E = endError (Parser.headerCfg x) n E := by
  unfold Parser.headerCfg
  show endError (if x.wrapped then _ else _) n E = endError (if x.wrapped then _ else _) n E
  split <;> rfl

theorem hdrRes_chars (hd : x.delim ≠ []) {raw : Bytes} (h : AG raw) : hdrRes (y) raw = hdrRes x raw := by
  have hr : decodeRow (Parser.headerCfg (y)) (y).delim (cutNul raw) = decodeRow (Parser.headerCfg x) x.delim (cutNul raw) :=
    (decodeRow_alike hd fun b hb => headerCfg_agree (h b (cutNul_sub b hb))).1
  unfold hdrRes
  simp only [hr, headerCfg_endError]

/-- the split of the header text and what is done with its columns -/
theorem header_both (hx : x.Ok) (hy : (y).Ok) (hw : x.wrapped = false ∨ x.cfg.multiline = false) {β : Type} {n n' : M Mach β}
    {g g' : List Bytes → M Mach β} {t : Mach} (h : PM t) (hn : ∀ t, PM t → n' t = n t ∧ Part PM (n t))
    (hg : ∀ cols t, PM t → g' cols t = g cols t ∧ Part PM (g cols t)) :
    (Mach.strictSplit (y) >>= fun o => match o with | none => n' | some sp => Mach.columnsOf sp >>= g') t =
      (Mach.strictSplit x >>= fun o => match o with | none => n | some sp => Mach.columnsOf sp >>= g) t ∧
    Part PM ((Mach.strictSplit x >>= fun o => match o with | none => n | some sp => Mach.columnsOf sp >>= g) t) := by
  obtain ⟨r1, e1, h1⟩ := strictSplit_spec hx t.rawHeader
  obtain ⟨r2, e2, h2⟩ := strictSplit_spec hy t.rawHeader
  have e : r2 = r1 := by rw [e1 hw, e2 hw, hdrRes_chars hx.delim h.raw]
  subst e
  replace h1 := h1 t rfl
  replace h2 := h2 t rfl
  cases r2 with
  | error m =>
    simp only at h1 h2
    by_cases hth : x.cfg.mode = .throw
    · rw [if_pos hth] at h1
      rw [if_pos (show (y).cfg.mode = .throw from hth)] at h2
      rw [M.bind_of_exc h1, M.bind_of_exc h2]
      exact ⟨rfl, h⟩
    · rw [if_neg hth] at h1
      rw [if_neg (show ¬ (y).cfg.mode = .throw from hth)] at h2
      rw [M.bind_of_ok h1, M.bind_of_ok h2]
      exact hn _ ⟨h.rd, h.raw⟩
  | ok cols =>
    obtain ⟨sp, a1, a2⟩ := h1
    obtain ⟨sp', b1, b2⟩ := h2
    rw [M.bind_of_ok a1, M.bind_of_ok b1]
    dsimp only
    rw [M.bind_of_ok (a2 t), M.bind_of_ok (b2 t)]
    exact hg cols t h

theorem addHeader_both : ∀ (fs : List Bytes) {t : Mach}, PM t → Mach.addHeader (y) fs t = Mach.addHeader x fs t ∧ Part PM (Mach.addHeader x fs t) := by
  intro fs
  induction fs with
  | nil => intro t h; exact same_both h
  | cons f fs ih =>
    intro t h
    unfold Mach.addHeader
    refine bind_both (get_both h) fun s _ h => ite_both (fun _ => ?_) fun _ => ?_
    · exact bind_both (handleError_both h) fun _ _ h => same_both (Part.modify ⟨h.rd, h.raw⟩)
    · exact bind_both (same_both (Part.modify ⟨h.rd, h.raw⟩)) fun _ _ h => ih h

theorem mapFields_both (all : List Bytes) : ∀ (fs : List Bytes) {t : Mach}, PM t →
    Mach.mapFields (y) all fs t = Mach.mapFields x all fs t ∧ Part PM (Mach.mapFields x all fs t) := by
  intro fs
  induction fs with
  | nil => intro t h; exact same_both h
  | cons f fs ih =>
    intro t h
    unfold Mach.mapFields
    refine ite_both (fun _ => bind_both (handleError_both h) fun _ _ h => same_both h) fun _ => ?_
    refine bind_both (get_both h) fun s _ h => ?_
    cases s.headerIndex f with
    | none => exact bind_both (handleError_both h) fun _ _ h => same_both h
    | some i =>
      refine bind_both (ih h) fun o _ h => ?_
      cases o <;> exact same_both h

theorem splitHeaderDataIf_both (hx : x.Ok) (hy : (y).Ok) (hw : x.wrapped = false ∨ x.cfg.multiline = false) (p : Mach → Bool) {t : Mach} (h : PM t) :
    Mach.splitHeaderDataIf (y) p t = Mach.splitHeaderDataIf x p t ∧ Part PM (Mach.splitHeaderDataIf x p t) := by
  unfold Mach.splitHeaderDataIf
  split
  · exact header_both hx hy hw h (fun t h => same_both h) fun cols t h => addHeader_both cols h
  · exact ⟨rfl, h⟩

theorem getHeader_both (hx : x.Ok) (hy : (y).Ok) (hw : x.wrapped = false ∨ x.cfg.multiline = false) {t : Mach} (h : PM t) :
    Mach.getHeader (y) t = Mach.getHeader x t ∧ Part PM (Mach.getHeader x t) := by
  have hb : ∀ sp : Spl, Mach.columnsOf sp = (Mach.columnsOf sp >>= fun c => pure c) := by
    intro sp
    funext s
    rw [M.bind_apply]
    cases Mach.columnsOf sp s <;> rfl
  unfold Mach.getHeader
  refine bind_both (clearError_both h) fun _ t h => ?_
  have := header_both hx hy hw (n := pure []) (n' := pure []) (g := fun c => pure c) (g' := fun c => pure c) h (fun t h => same_both h)
    fun cols t h => same_both h
  simp only [← hb] at this
  exact this

theorem mexec_both (hx : x.Ok) (hy : (y).Ok) (hw : x.wrapped = false ∨ x.cfg.multiline = false) (op : Op) {t : Mach} (h : PM t) :
    op.mexec (y) t = op.mexec x t ∧ Part PM (op.mexec x t) := by
  have hd := hx.delim
  cases op with
  | getNext rs =>
    refine bind_both (getNext_both hd h) fun v _ h => bind_both (get_both h) fun s _ h => ite_both (fun _ => ?_) fun _ => same_both h
    cases v with
    | none => exact ⟨rfl, trivial⟩
    | some v => exact same_both h
  | ignoreNext => exact bind_both (onRd_both ⟨rfl, readNext_plain h.rd⟩ h) fun _ _ h => same_both h
  | header => exact bind_both (getHeader_both hx hy hw h) fun _ _ h => same_both h
  | rawHeader => exact same_both h
  | fieldExists f =>
    refine bind_both ?_ fun _ _ h => same_both h
    unfold Mach.fieldExists
    refine bind_both (clearError_both h) fun _ _ h => bind_both (splitHeaderDataIf_both hx hy hw _ h) fun _ _ h => ?_
    exact bind_both (get_both h) fun s _ h => ite_both (fun _ => same_both h) fun _ => same_both h
  | useFields fs =>
    refine bind_both ?_ fun _ _ h => same_both h
    unfold Mach.useFields
    refine bind_both (clearError_both h) fun _ _ h => bind_both (splitHeaderDataIf_both hx hy hw _ h) fun _ _ h => ?_
    refine bind_both (get_both h) fun s _ h => ite_both (fun _ => same_both h) fun _ => ite_both (fun _ => handleError_both h) fun _ => ?_
    refine bind_both (mapFields_both fs fs h) fun o _ h => ?_
    cases o with
    | none => exact same_both h
    | some sel =>
      refine bind_both (same_both (Part.modify ⟨same_plain h.rd rfl rfl, h.raw⟩)) fun _ _ h => bind_both (get_both h) fun s _ h => ?_
      exact ite_both (fun _ => bind_both (onRd_both ⟨rfl, readNext_plain h.rd⟩ h) fun _ _ h => same_both h) fun _ => same_both h
  | chain a as =>
    refine bind_both (get_both h) fun s _ h => ite_both (fun _ => same_both h) fun _ => ?_
    refine bind_both ?_ fun _ _ h => same_both h
    unfold Mach.tryChain
    exact bind_both (tryNext_both hd h) fun _ _ h => bind_both (orElses_both _ h) fun _ _ h => same_both h

theorem mem_of_rawLine {d : Bytes} {l' : Bytes} (h : l' ∈ rawLines d) : ∀ b ∈ l', b ∈ d := by
  intro b hb
  rw [← rawLines_flatten d]
  exact List.mem_flatten.mpr ⟨l', h, hb⟩

theorem new_both (h0 : x.cfg.AgreeAt (y).cfg NUL) (hs : x.SameOnData (y)) {t : Mach} (h : MNew x t) : MNew (y) t ∧ PM t := by
  have hin : PL (Mach.init x).rd := ⟨.nil, fun l' hl b hb => hs b (.inl (mem_of_rawLine hl b hb)),
    fun hm b hb => hs b (.inr ⟨hm, by simp at hb; grind⟩), h0⟩
  rcases h with h | h
  · refine ⟨.inl h, ?_⟩
    have hpi : PM (Mach.init x) := ⟨hin, .nil⟩
    have hb : Part PM (Mach.firstLine x (Mach.init x)) := by
      unfold Mach.firstLine
      refine Part.bind (readLine_both hpi).2 fun _ _ h => ?_
      split
      · exact Part.bind (onRd_both ⟨rfl, readNext_plain h.rd⟩ h).2 fun _ _ h => h
      · rw [M.get_bind]
        exact Part.modify ⟨h.rd, h.rd.look⟩
    rw [h] at hb
    exact hb
  · obtain ⟨h1, h2, e', h3, rfl⟩ := h
    exact ⟨.inr ⟨h1, h2, e', h3, rfl⟩, hin, .nil⟩

end
end Ssp
