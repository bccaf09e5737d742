import Verif.Proofs.MachineRest
/-!
# What the calls of the row machine leave alone
-/
namespace Ssp
open Spec

/-- If the call comes back, `P` holds. -/
def Part {σ α : Type} (P : σ → Prop) : Res σ α → Prop
  | .ok _ t => P t
  | .exc _ t => P t
  | _ => True

namespace Part
variable {σ α β : Type} {P Q : σ → Prop}

theorem mono {r : Res σ α} (h : Part P r) (hpq : ∀ t, P t → Q t) : Part Q r := by
  cases r <;> first | exact hpq _ h | trivial

theorem bind {m : M σ α} {f : α → M σ β} {s : σ} (h : Part P (m s)) (hf : ∀ a t, P t → Part P (f a t)) :
    Part P ((m >>= f) s) := by
  rw [M.bind_apply]
  cases hm : m s with
  | ok a t' => rw [hm] at h; exact hf a t' h
  | exc e t' => rw [hm] at h; exact h
  | ub => trivial
  | nofuel => trivial

theorem modify {f : σ → σ} {s : σ} (h : P (f s)) : Part P (M.modify f s) := h
theorem pure {a : α} {s : σ} (h : P s) : Part P ((Pure.pure a : M σ α) s) := h
theorem get {s : σ} (h : P s) : Part P ((M.get : M σ σ) s) := h
theorem ite {c : Prop} [Decidable c] {m n : M σ α} {s : σ} (h1 : Part P (m s)) (h2 : Part P (n s)) :
    Part P ((if c then m else n) s) := by split <;> assumption
end Part

/-- The selection is still the same. -/
def KeepR (sel : List Nat) (n : Nat) (a : MRd) : Prop := a.sel = sel ∧ a.ncols = n

section
variable {x : Ctx} {sel : List Nat} {n : Nat}

theorem readGo_keep {ie : Bool} : ∀ (ls : List Bytes) (a : MRd), KeepR sel n a → KeepR sel n (MRd.readGo ie ls a).2 := by
  intro ls
  induction ls with
  | nil => intro a h; exact h
  | cons l ls ih =>
    intro a h
    unfold MRd.readGo
    split
    · exact ih _ h
    · exact h

theorem readNext_keep {a : MRd} (h : KeepR sel n a) : Part (KeepR sel n) (MRd.readNext x a) := readGo_keep _ _ h

theorem splitText_keep {c : Cfg} {d t : Bytes} {a : MRd} (h : KeepR sel n a) : Part (KeepR sel n) (MRd.splitText c d t a) := by
  unfold MRd.splitText
  split
  · exact h
  · split
    · split <;> exact h
    · exact h

theorem failLimit_keep {c : Cfg} {a : MRd} (h : KeepR sel n a) : Part (KeepR sel n) (MRd.failLimit c a) := by
  unfold MRd.failLimit; split <;> exact h

theorem failOpen_keep {c : Cfg} {m : Bytes} {a : MRd} (h : KeepR sel n a) : Part (KeepR sel n) (MRd.failOpen c m a) := by
  unfold MRd.failOpen; split <;> exact h

theorem append_keep {a : MRd} (h : KeepR sel n a) : Part (KeepR sel n) (MRd.append a) := by
  unfold MRd.append; split <;> exact h

theorem escapeLoop_keep {pre : Bytes} {before : Nat} : ∀ (f limit : Nat) {a : MRd}, KeepR sel n a →
    Part (KeepR sel n) (MRd.escapeLoop x pre before f limit a) := by
  intro f
  induction f with
  | zero => intro _ _ _; trivial
  | succ f ih =>
    intro limit a h
    unfold MRd.escapeLoop
    refine Part.bind (Part.get h) fun a _ h => Part.ite (Part.ite ?_ ?_) h
    · exact Part.bind (failLimit_keep h) fun _ _ h => h
    · exact Part.bind (append_keep h) fun b _ h =>
        Part.ite (ih _ h) (Part.bind (failOpen_keep h) fun _ _ h => h)

theorem escapeLoopIf_keep {pre : Bytes} {before : Nat} (limit : Nat) {a : MRd} (h : KeepR sel n a) :
    Part (KeepR sel n) (MRd.escapeLoopIf x pre before limit a) := by
  unfold MRd.escapeLoopIf
  exact Part.ite (escapeLoop_keep _ _ h) h

theorem resplitText_keep {c : Cfg} {d acc more : Bytes} {fs : List Bytes} {k o : Nat} {a : MRd} (h : KeepR sel n a) :
    Part (KeepR sel n) (MRd.resplitText c d fs acc k o more a) := by
  unfold MRd.resplitText
  simp only
  split
  · split <;> exact h
  · exact h

theorem quoteLoop_keep : ∀ (f limit : Nat) (fs : List Bytes) (acc : Bytes) (k o : Nat) (tail : Bytes) {a : MRd}, KeepR sel n a →
    Part (KeepR sel n) (MRd.quoteLoop x f limit fs acc k o tail a) := by
  intro f
  induction f with
  | zero => intros; trivial
  | succ f ih =>
    intro limit fs acc k o tail a h
    unfold MRd.quoteLoop
    refine Part.bind (Part.get h) fun a _ h => Part.ite (failLimit_keep h) ?_
    refine Part.bind (append_keep h) fun b _ h => Part.ite ?_ (failOpen_keep h)
    refine Part.bind (escapeLoopIf_keep _ h) fun o _ h => ?_
    cases o with
    | none => exact h
    | some limit' =>
      refine Part.bind (Part.get h) fun a _ h => ?_
      refine Part.bind (resplitText_keep h) fun _ _ h => ?_
      cases (decode x.cfg x.delim .quoted acc (cutNul (tail ++ a.look.drop _))).2 <;> first | exact h | exact ih _ _ _ _ _ _ h

theorem parse_keep {a : MRd} (h : KeepR sel n a) : Part (KeepR sel n) (MRd.parse x a) := by
  unfold MRd.parse
  refine Part.bind (escapeLoopIf_keep _ h) fun o _ h => ?_
  cases o with
  | none => exact h
  | some limit =>
    refine Part.bind (Part.get h) fun a _ h => ?_
    refine Part.bind (splitText_keep h) fun _ _ h => Part.ite ?_ h
    cases (decodeRow x.cfg x.delim (cutNul a.look)).2 <;> first | exact h | exact quoteLoop_keep _ _ _ _ _ _ _ h

theorem convertCur_keep {c : Cfg} {rs : List Req} {a : MRd} (h : KeepR sel n a) : Part (KeepR sel n) (MRd.convertCur c rs a) := by
  unfold MRd.convertCur
  simp only
  split
  · exact h
  · split
    · trivial
    · split
      · exact h
      · split <;> exact h

end

/-- The selection, the header and the header text are still the same. -/
structure Keep (t0 t : Mach) : Prop where
  rd : KeepR t0.rd.sel t0.rd.ncols t.rd
  header : t.header = t0.header
  rawHeader : t.rawHeader = t0.rawHeader

section
variable {x : Ctx} {t0 : Mach}

theorem onRd_keep {α : Type} {m : M MRd α} (hm : ∀ a, KeepR t0.rd.sel t0.rd.ncols a → Part (KeepR t0.rd.sel t0.rd.ncols) (m a))
    {t : Mach} (h : Keep t0 t) : Part (Keep t0) (Mach.onRd m t) := by
  have := hm t.rd h.rd
  unfold Mach.onRd
  cases hr : m t.rd with
  | ok v a => rw [hr] at this; exact ⟨this, h.header, h.rawHeader⟩
  | exc e a => rw [hr] at this; exact ⟨this, h.header, h.rawHeader⟩
  | ub => trivial
  | nofuel => trivial

theorem readLine_keep {t : Mach} (h : Keep t0 t) : Part (Keep t0) (Mach.readLine x t) :=
  Part.bind (onRd_keep (fun _ h => readNext_keep h) h) fun _ _ h => Part.modify ⟨h.rd, h.header, h.rawHeader⟩

theorem handleError_keep {c : Cfg} {m : Bytes} {t : Mach} (h : Keep t0 t) : Part (Keep t0) (Mach.handleError c m t) := by
  unfold Mach.handleError
  cases c.mode <;> first | exact h | exact ⟨h.rd, h.header, h.rawHeader⟩

theorem hic_keep {t : Mach} (h : Keep t0 t) : Part (Keep t0) (Mach.handleErrorInvalidConversion x t) := ⟨h.rd, h.header, h.rawHeader⟩
theorem clearError_keep {c : Cfg} {t : Mach} (h : Keep t0 t) : Part (Keep t0) (Mach.clearError c t) := ⟨h.rd, h.header, h.rawHeader⟩

theorem tryCatch_keep {α : Type} {m : M Mach α} {f : Bytes → M Mach α} {t : Mach} (h : Part (Keep t0) (m t))
    (hf : ∀ e t, Keep t0 t → Part (Keep t0) (f e t)) : Part (Keep t0) (Mach.tryCatch m f t) := by
  unfold Mach.tryCatch
  cases hm : m t with
  | ok v a => rw [hm] at h; exact h
  | exc e a => rw [hm] at h; exact hf e a h
  | ub => trivial
  | nofuel => trivial

theorem rethrow_keep {α : Type} {e : Bytes} {t : Mach} (h : Keep t0 t) :
    Part (Keep t0) ((Mach.readLine x >>= fun _ => (Mach.decorateRethrow x e : M Mach α)) t) :=
  Part.bind (readLine_keep h) fun _ _ h => h

theorem getNext_keep {rs : List Req} {t : Mach} (h : Keep t0 t) : Part (Keep t0) (Mach.getNext x rs t) := by
  unfold Mach.getNext
  refine Part.bind ?_ fun _ _ h => ?_
  · unfold Mach.parseRowIf
    split
    · exact h
    · unfold Mach.parseRow
      cases x.cfg.mode with
      | throw => exact tryCatch_keep (onRd_keep (fun _ h => parse_keep h) h) fun e t h => rethrow_keep h
      | string => exact onRd_keep (fun _ h => parse_keep h) h
      | bool => exact onRd_keep (fun _ h => parse_keep h) h
  · refine Part.bind (onRd_keep (m := MRd.update) (fun _ h => h) h) fun _ _ h => ?_
    refine Part.bind (Part.get h) fun s _ h => Part.ite ?_ ?_
    · exact Part.bind (hic_keep h) fun _ _ h => Part.bind (readLine_keep h) fun _ _ h => h
    · refine Part.bind (clearError_keep h) fun _ _ h => Part.ite ?_ ?_
      · exact Part.bind (handleError_keep h) fun _ _ h => h
      · have hnt : Part (Keep t0) ((do
            let v ← Mach.onRd (MRd.convertCur x.cfg rs)
            let s ← M.get
            (if s.rd.cur.err.valid x.cfg.mode then pure () else Mach.handleErrorInvalidConversion x)
            Mach.readLine x
            pure v : M Mach (Option (List Val))) ‹Mach›) := by
          refine Part.bind (onRd_keep (fun _ h => convertCur_keep h) h) fun _ _ h => ?_
          refine Part.bind (Part.get h) fun s _ h => ?_
          refine Part.bind (Part.ite h (hic_keep h)) fun _ _ h => ?_
          exact Part.bind (readLine_keep h) fun _ _ h => h
        unfold Mach.convertRow
        cases hmode : x.cfg.mode with
        | throw =>
          refine tryCatch_keep ?_ fun e t h => rethrow_keep h
          exact Part.bind (onRd_keep (fun _ h => convertCur_keep h) h) fun _ _ h => Part.bind (readLine_keep h) fun _ _ h => h
        | string => rw [hmode] at hnt; exact hnt
        | bool => rw [hmode] at hnt; exact hnt

theorem tryInvoke_keep {o : Option (List Val)} {fn : Option (List Val → Option Bool)} {t : Mach} (h : Keep t0 t) :
    Part (Keep t0) (Mach.tryInvoke x o fn t) := by
  unfold Mach.tryInvoke
  cases fn with
  | none => exact h
  | some f =>
    cases o with
    | none => trivial
    | some v =>
      simp only
      rcases f v with _ | _ | _
      · exact h
      · exact Part.bind (handleError_keep h) fun _ _ h => h
      · exact h

theorem optional_keep {b : Bool} {o : Option (List Val)} {t : Mach} (h : Keep t0 t) : Part (Keep t0) (Mach.optional b o t) := by
  unfold Mach.optional
  split
  · split
    · trivial
    · exact h
  · exact h

theorem tryNext_keep {a : Parser.Alt} {t : Mach} (h : Keep t0 t) : Part (Keep t0) (Mach.tryNext x a t) := by
  unfold Mach.tryNext
  refine Part.bind (getNext_keep h) fun v _ h => Part.bind (Part.get h) fun s _ h => Part.ite ?_ h
  exact Part.bind (tryInvoke_keep h) fun _ _ h => Part.bind (Part.get h) fun s _ h =>
    Part.bind (optional_keep h) fun _ _ h => h

theorem orElse_keep {a : Parser.Alt} {t : Mach} (h : Keep t0 t) : Part (Keep t0) (Mach.orElse x a t) := by
  unfold Mach.orElse
  refine Part.bind (Part.get h) fun s _ h => Part.ite h ?_
  refine Part.bind ?_ fun v _ h => Part.bind (Part.get h) fun s _ h => Part.ite ?_ h
  · unfold Mach.trySame
    refine Part.bind (clearError_keep h) fun _ _ h => ?_
    refine Part.bind (onRd_keep (fun _ h => convertCur_keep h) h) fun _ _ h => ?_
    refine Part.bind (Part.get h) fun s _ h => ?_
    exact Part.bind (Part.ite h (hic_keep h)) fun _ _ h => h
  · exact Part.bind (tryInvoke_keep h) fun _ _ h => Part.bind (Part.get h) fun s _ h =>
      Part.bind (optional_keep h) fun _ _ h => h

theorem orElses_keep : ∀ (as : List Parser.Alt) {t : Mach}, Keep t0 t → Part (Keep t0) (Mach.orElses x as t) := by
  intro as
  induction as with
  | nil => intro t h; exact h
  | cons a as ih =>
    intro t h
    unfold Mach.orElses
    exact Part.bind (orElse_keep h) fun _ _ h => Part.bind (ih h) fun _ _ h => h

end

/-- no header functions -/
def Op.rowsOnly : Op → Bool
  | .fieldExists _ => false
  | .useFields _ => false
  | _ => true

theorem mexec_keep {x : Ctx} {op : Op} (ho : op.rowsOnly = true) (t : Mach) : Part (Keep t) (op.mexec x t) := by
  have h : Keep t t := ⟨⟨rfl, rfl⟩, rfl, rfl⟩
  cases op with
  | getNext rs =>
    refine Part.bind (getNext_keep h) fun v _ h => Part.bind (Part.get h) fun s _ h => Part.ite ?_ h
    split
    · exact h
    · trivial
  | ignoreNext => exact Part.bind (onRd_keep (fun _ h => readNext_keep h) h) fun _ _ h => h
  | header =>
    refine Part.bind (P := Keep t) ?_ fun _ _ h => h
    unfold Mach.getHeader
    refine Part.bind (clearError_keep h) fun _ _ h => ?_
    refine Part.bind (P := Keep t) ?_ fun o t' h => ?_
    · unfold Mach.strictSplit
      split
      · split
        · exact h
        · exact ⟨h.rd, h.header, h.rawHeader⟩
      · exact h
      · trivial
      · trivial
    · split
      · exact h
      · unfold Mach.columnsOf
        split
        · exact h
        · trivial
  | rawHeader => exact h
  | fieldExists f => cases ho
  | useFields fs => cases ho
  | chain a as =>
    refine Part.bind (Part.get h) fun s _ h => Part.ite h ?_
    refine Part.bind ?_ fun _ _ h => h
    unfold Mach.tryChain
    exact Part.bind (tryNext_keep h) fun _ _ h => Part.bind (orElses_keep _ h) fun _ _ h => h

end Ssp
