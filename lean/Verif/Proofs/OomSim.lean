import Verif.Proofs.OomState
import Verif.Proofs.ParseOne
import Verif.Proofs.MachineRun
/-!
# The parser for which memory runs out, and the row machine
-/
namespace Ssp
open Spec

/-- The outcome `r` is what the outcome `r'` of the machine says, or `std::bad_alloc` left the call and `J` holds. -/
def RSimF {σ τ α β : Type} (Q E : σ → τ → Prop) (V : α → β → Prop) (J : σ → Prop) (r : Res (σ × Heap) (Option α)) (r' : Res τ β) : Prop :=
  match r' with
  | .ok b t => (∃ a s h, r = .ok (some a) (s, h) ∧ V a b ∧ Q s t) ∨ ∃ s h, r = .ok none (s, h) ∧ J s
  | .exc e t => (∃ s h, r = .exc e (s, h) ∧ E s t) ∨ ∃ s h, r = .ok none (s, h) ∧ J s
  | .ub => True
  | .nofuel => True

namespace RSimF
variable {σ τ α β α' β' : Type} {Q E Q' E' : σ → τ → Prop} {V : α → β → Prop} {V' : α' → β' → Prop} {J : σ → Prop}

theorem oom {r : Res (σ × Heap) (Option α)} {r' : Res τ β} {s : σ} {h : Heap} (e : r = .ok none (s, h)) (hj : J s) : RSimF Q E V J r r' := by
  cases r' with
  | ok b t => exact .inr ⟨_, _, e, hj⟩
  | exc e' t => exact .inr ⟨_, _, e, hj⟩
  | ub => trivial
  | nofuel => trivial

theorem lift {m : M σ α} {r' : Res τ β} {s : σ} (hp : Heap) (h : RSim Q E V (m s) r') : RSimF Q E V J (F.lift m (s, hp)) r' := by
  cases r' with
  | ok b t => obtain ⟨a, s', h1, h2, h3⟩ := h; exact .inl ⟨a, s', hp, by simp [F.lift, h1], h2, h3⟩
  | exc e t => obtain ⟨s', h1, h2⟩ := h; exact .inl ⟨s', hp, by simp [F.lift, h1], h2⟩
  | ub => trivial
  | nofuel => trivial

theorem ok {a : α} {b : β} {s : σ} {t : τ} {h : Heap} (hv : V a b) (hq : Q s t) : RSimF Q E V J (.ok (some a) (s, h)) (.ok b t) :=
  .inl ⟨a, s, h, rfl, hv, hq⟩

theorem bind {m : F σ α} {m' : M τ β} {f : α → F σ α'} {f' : β → M τ β'} {s : σ} {t : τ} {hp : Heap}
    (h : RSimF Q E V J (m (s, hp)) (m' t))
    (hf : ∀ a s' b t' hp', V a b → Q s' t' → RSimF Q' E V' J (f a (s', hp')) (f' b t')) :
    RSimF Q' E V' J ((m >>= f) (s, hp)) ((m' >>= f') t) := by
  unfold RSimF at h
  cases hm : m' t with
  | ok b t' =>
    rw [hm] at h
    rcases h with ⟨a, s', h', h1, h2, h3⟩ | ⟨s', h', h1, h2⟩
    · rw [F.bind_ok h1, M.bind_of_ok hm]
      exact hf _ _ _ _ _ h2 h3
    · exact oom (F.bind_none h1) h2
  | exc e t' =>
    rw [hm] at h
    rcases h with ⟨s', h', h1, h2⟩ | ⟨s', h', h1, h2⟩
    · rw [M.bind_of_exc hm]
      refine .inl ⟨s', h', ?_, h2⟩
      show F.bind m f _ = _
      simp [F.bind, h1]
    · exact oom (F.bind_none h1) h2
  | ub => simp [M.bind_apply, hm, RSimF]
  | nofuel => simp [M.bind_apply, hm, RSimF]

theorem mono {r : Res (σ × Heap) (Option α)} {r' : Res τ β} (h : RSimF Q E V J r r') (hq : ∀ s t, Q s t → Q' s t) (he : ∀ s t, E s t → E' s t) :
    RSimF Q' E' V J r r' := by
  unfold RSimF at *
  cases r' with
  | ok b t => exact h.imp (fun ⟨a, s, h', h1, h2, h3⟩ => ⟨a, s, h', h1, h2, hq _ _ h3⟩) id
  | exc e t => exact h.imp (fun ⟨s, h', h1, h2⟩ => ⟨s, h', h1, he _ _ h2⟩) id
  | ub => trivial
  | nofuel => trivial

/-- from a call that follows another -/
theorem of_follows {w : Alloc} {m : M σ α} {f : F σ α} {s : σ} {hp : Heap} {r' : Res τ β} (hf : Follows w m f) (h : RSim Q E V (m s) r')
    (hj : ∀ s' h', f (s, hp) = .ok none (s', h') → J s') : RSimF Q E V J (f (s, hp)) r' := by
  have h1 := hf s hp
  generalize hr : f (s, hp) = r at *
  generalize m s = r0 at *
  cases h1 with
  | oom => exact oom rfl (hj _ _ rfl)
  | ok hc =>
    cases r' with
    | ok b t => obtain ⟨a, s', h1, h2, h3⟩ := h; cases h1; exact .inl ⟨_, _, _, rfl, h2, h3⟩
    | exc e t => obtain ⟨s', h1, h2⟩ := h; cases h1
    | ub => trivial
    | nofuel => trivial
  | exc hc =>
    cases r' with
    | ok b t => obtain ⟨a, s', h1, h2, h3⟩ := h; cases h1
    | exc e t => obtain ⟨s', h1, h2⟩ := h; cases h1; exact .inl ⟨_, _, rfl, h2⟩
    | ub => trivial
    | nofuel => trivial
  | ub =>
    cases r' with
    | ok b t => obtain ⟨a, s', h1, h2, h3⟩ := h; cases h1
    | exc e t => obtain ⟨s', h1, h2⟩ := h; cases h1
    | ub => trivial
    | nofuel => trivial
  | nofuel =>
    cases r' with
    | ok b t => obtain ⟨a, s', h1, h2, h3⟩ := h; cases h1
    | exc e t => obtain ⟨s', h1, h2⟩ := h; cases h1
    | ub => trivial
    | nofuel => trivial

end RSimF

theorem F.lift_congr {σ α : Type} {m m' : M σ α} {s : σ} {h : Heap} (e : m s = m' s) : F.lift m (s, h) = F.lift m' (s, h) := by
  unfold F.lift
  simp only [e]

theorem F.lift_bind {σ α β : Type} (m : M σ α) (f : α → M σ β) (s : σ) (h : Heap) :
    F.lift (m >>= f) (s, h) = (F.lift m >>= fun a => F.lift (f a)) (s, h) := by
  show _ = F.bind _ _ _
  unfold F.bind F.lift
  simp only [M.bind_apply]
  cases m s <;> rfl

/-! ## After `std::bad_alloc` -/

/-- what is left of a parser when `std::bad_alloc` has left one of its calls -/
def Lost (x : Ctx) (s : Parser) : Prop := ∃ t, PMid x s t

theorem PMid.lost {x : Ctx} {s : Parser} {t : Mach} {r : Reader} (h : PMid x s t) (hk : Reader.Kin x s.rd r) : Lost x { s with rd := r } := by
  obtain ⟨a, h1, h2⟩ := hk.base h.base
  refine ⟨{ t with rd := a }, h.err, h.header, h.rawHeader, h.eof, h1, fun he => h2 (h.eofd he), ?_⟩
  rcases h.idle with hi | hi
  · exact .inl (h2 hi)
  · refine .inr ⟨?_, ?_⟩
    · show r.cur.Idle _
      rw [hk.cur]
      exact hi.1
    · exact ⟨by rw [hk.resplitting]; exact hi.2.1, fun hm => by rw [hk.quote]; exact hi.2.2 hm⟩

section
variable {x : Ctx} {α β : Type} {w : Alloc}

/-- a refusal inside `read_next` -/
theorem readNextF_none {s : Parser} {t : Mach} {hp : Heap} (h : PMid x s t) {s' : Parser} {h' : Heap} {o : Option Bool}
    (he : Parser.onRdF (Reader.readNextF w x) (s, hp) = .ok o (s', h')) : Lost x s' := by
  unfold Parser.onRdF F.zoom at he
  simp only at he
  cases hg : Reader.readNextF w x (s.rd, hp) with
  | ok r q =>
    rw [hg] at he
    obtain ⟨r', h1⟩ := q
    cases he
    exact h.lost (Reader.kin_readNext _ _ _ _ _ hg)
  | exc e q => rw [hg] at he; cases he
  | ub => rw [hg] at he; cases he
  | nofuel => rw [hg] at he; cases he

theorem readLine_simF (hx : x.Good) {E : Parser → Mach → Prop} {s : Parser} {t : Mach} (hp : Heap) (h : PMid x s t) :
    RSimF (PRel x) E (fun _ _ => True) (Lost x) (Parser.readLineF w x (s, hp)) (Mach.readLine x t) := by
  refine RSimF.of_follows (Parser.follows_readLine x) (readLine_sim hx h) fun s' h' he => ?_
  unfold Parser.readLineF at he
  cases hg : Parser.onRdF (Reader.readNextF w x) (s, hp) with
  | ok o p =>
    obtain ⟨s1, h1⟩ := p
    cases o with
    | none => rw [F.bind_none hg] at he; cases he; exact readNextF_none h hg
    | some b => rw [F.bind_ok hg] at he; cases he
  | exc e p =>
    have : (Parser.onRdF (Reader.readNextF w x) >>= fun b => F.lift (M.modify fun s : Parser => { s with eof := !b })) (s, hp) = .exc e p := by
      show F.bind _ _ _ = _
      simp [F.bind, hg]
    rw [this] at he
    cases he
  | ub =>
    have : (Parser.onRdF (Reader.readNextF w x) >>= fun b => F.lift (M.modify fun s : Parser => { s with eof := !b })) (s, hp) = .ub := by
      show F.bind _ _ _ = _
      simp [F.bind, hg]
    rw [this] at he
    cases he
  | nofuel =>
    have : (Parser.onRdF (Reader.readNextF w x) >>= fun b => F.lift (M.modify fun s : Parser => { s with eof := !b })) (s, hp) = .nofuel := by
      show F.bind _ _ _ = _
      simp [F.bind, hg]
    rw [this] at he
    cases he

theorem ignoreNext_simF (hx : x.Good) {E : Parser → Mach → Prop} {s : Parser} {t : Mach} (hp : Heap) (h : PRel x s t) :
    RSimF (PRel x) E (fun a b => a = b) (Lost x) (Parser.ignoreNextF w x (s, hp)) (Mach.onRd (MRd.readNext x) t) :=
  RSimF.of_follows (Parser.follows_ignoreNext x) (ignoreNext_sim hx h) fun _ _ he => readNextF_none h.mid he

theorem tryCatch_simF {Q E E' : Parser → Mach → Prop} {V : α → β → Prop} {J : Parser → Prop} {m : F Parser α} {m' : M Mach β}
    {k : Bytes → F Parser α} {k' : Bytes → M Mach β} {s : Parser} {t : Mach} {hp : Heap}
    (h : RSimF Q E V J (m (s, hp)) (m' t)) (hk : ∀ e s' t' hp', E s' t' → RSimF Q E' V J (k e (s', hp')) (k' e t')) :
    RSimF Q E' V J (Parser.tryCatchF m k (s, hp)) (Mach.tryCatch m' k' t) := by
  unfold Parser.tryCatchF Mach.tryCatch
  cases hm : m' t with
  | ok b t' =>
    rw [hm] at h
    rcases h with ⟨a, s', h', h1, h2, h3⟩ | ⟨s', h', h1, h2⟩
    · rw [h1]; exact .ok h2 h3
    · rw [h1]; exact .oom rfl h2
  | exc e t' =>
    rw [hm] at h
    rcases h with ⟨s', h', h1, h2⟩ | ⟨s', h', h1, h2⟩
    · rw [h1]; exact hk _ _ _ _ h2
    · rw [h1]; exact .oom rfl h2
  | ub => trivial
  | nofuel => trivial

/-- without multiline `parse` requests nothing -/
theorem parseF_one (hm : x.cfg.multiline = false) (s : Reader) (hp : Heap) : Reader.parseF w x (s, hp) = F.lift (Reader.parse x) (s, hp) := by
  have h1 : (Reader.escapeLoopIfF w x 0) (s, hp) = .ok (some (some 0)) (s, hp) := by
    unfold Reader.escapeLoopIfF
    rw [if_neg (by simp [hm])]
    rfl
  have h2 : Reader.escapeLoopIf x 0 s = .ok (some 0) s := by
    unfold Reader.escapeLoopIf
    rw [if_neg (by simp [hm])]
    rfl
  have h3 : Reader.parse x s = Reader.onNext (Conv.split x.cfg x.delim) s := by
    unfold Reader.parse
    rw [M.bind_of_ok h2]
    simp only
    rw [if_neg (by simp [hm])]
    simp only [M.bind_apply]
    cases Reader.onNext (Conv.split x.cfg x.delim) s <;> rfl
  unfold Reader.parseF
  rw [F.bind_ok h1]
  simp only
  rw [if_neg (by simp [hm])]
  rw [F.lift_congr h3]
  show F.bind _ _ _ = _
  unfold F.bind F.lift
  simp only
  cases Reader.onNext (Conv.split x.cfg x.delim) s <;> rfl

theorem onRd_parse_simF (hx : x.Good) (hm : x.cfg.multiline = false) {s : Parser} {t : Mach} (hp : Heap) (h : PRel x s t) (he : t.eof = false) :
    RSimF (PMid x) (fun s t => x.cfg.mode = .throw ∧ PMid x s t) (fun _ _ => True) (Lost x) (Parser.onRdF (Reader.parseF w x) (s, hp))
      (Mach.onRd (MRd.parse x) t) := by
  have : Parser.onRdF (Reader.parseF w x) (s, hp) = F.lift (Parser.onRd (Reader.parse x)) (s, hp) := by
    unfold Parser.onRdF F.zoom Parser.onRd
    simp only
    rw [parseF_one hm]
    unfold F.lift
    simp only
    cases Reader.parse x s.rd <;> rfl
  rw [this]
  exact RSimF.lift hp (onRd_parse_sim hx h he)

theorem parseRowIf_simF (hx : x.Good) (hm : x.cfg.multiline = false) {s : Parser} {t : Mach} (hp : Heap) (h : PRel x s t) :
    RSimF (PMid x) (PRel x) (fun _ _ => True) (Lost x) (Parser.parseRowIfF w x (s, hp)) (Mach.parseRowIf x t) := by
  unfold Parser.parseRowIfF Mach.parseRowIf
  rw [F.get_bind, h.eof]
  cases he : t.eof with
  | true => exact .ok trivial h.mid
  | false =>
    simp only [Bool.false_eq_true, if_false]
    have hp' := onRd_parse_simF (w := w) hx hm hp h he
    unfold Parser.parseRowF Mach.parseRow
    cases hmo : x.cfg.mode with
    | throw =>
      refine tryCatch_simF hp' fun e s' t' hp' hq => ?_
      refine (readLine_simF hx hp' hq.2).bind fun _ s' _ t' hp' _ hq => ?_
      exact RSimF.lift hp' (decorateRethrow_sim e hq)
    | _ => exact hp'.mono (fun _ _ h => h) (fun _ _ h => by rw [hmo] at h; cases h.1)

theorem convertRow_simF (hx : x.Good) {s : Parser} {t : Mach} (hp : Heap) (rs : List Req) (h : PMid x s t) :
    RSimF (PRel x) (PRel x) VSome (Lost x) (Parser.convertRowF w x rs (s, hp)) (Mach.convertRow x rs t) := by
  unfold Parser.convertRowF Mach.convertRow
  have hc := convertCur_sim rs h.base (P := PMid x) h.setCurErr
  cases hm : x.cfg.mode with
  | throw =>
    simp only
    refine tryCatch_simF (E := PMid x) ?_ fun e s' t' hp' hq => ?_
    · refine RSimF.bind (RSimF.lift hp (hc.mono (fun _ _ h => h) (fun _ _ h => h.2))) fun v s' o t' hp' hv hq => ?_
      refine (readLine_simF hx hp' hq).bind fun _ s' _ t' hp' _ hq => ?_
      exact .ok hv hq
    · refine (readLine_simF hx hp' hq).bind fun _ s' _ t' hp' _ hq => ?_
      exact RSimF.lift hp' (decorateRethrow_sim e hq)
  | _ =>
    simp only
    refine RSimF.bind (RSimF.lift hp (hc.mono (fun _ _ h => h) (fun _ _ h => by rw [hm] at h; cases h.1))) fun v s' o t' hp' hv hq => ?_
    rw [F.get_bind, M.get_bind]
    refine RSimF.bind (Q := PMid x) (V := fun _ _ => True) (RSimF.lift hp' ?_) fun _ s' _ t' hp' _ hq => ?_
    · have : Conv.valid x.cfg s'.rd.cur.conv = t'.rd.cur.err.valid x.cfg.mode := by
        unfold Conv.valid; rw [hq.base.cur.err]
      rw [hm] at this
      rw [this]
      split
      · exact .ok trivial hq
      · exact handleErrorInvalidConversion_mid hq
    · refine (readLine_simF hx hp' hq).bind fun _ s' _ t' _ _ hq => ?_
      exact .ok hv hq

theorem getNext_simF (hx : x.Good) (hml : x.cfg.multiline = false) {s : Parser} {t : Mach} (hp : Heap) (rs : List Req) (h : PRel x s t) :
    RSimF (PRel x) (PRel x) VSome (Lost x) (Parser.getNextF w x rs (s, hp)) (Mach.getNext x rs t) := by
  unfold Parser.getNextF Mach.getNext
  refine (parseRowIf_simF hx hml hp h).bind fun _ s _ t hp _ h => ?_
  refine RSimF.bind (Q := PMid x) (V := fun _ _ => True) (RSimF.lift hp (.ok trivial (update_mid h))) fun _ s _ t hp _ h => ?_
  rw [F.get_bind, M.get_bind]
  have : Conv.valid x.cfg s.rd.cur.conv = t.rd.cur.err.valid x.cfg.mode := by
    unfold Conv.valid; rw [h.base.cur.err]
  rw [this]
  split
  · refine RSimF.bind (RSimF.lift hp (handleErrorInvalidConversion_mid h)) fun _ s _ t hp _ h => ?_
    refine (readLine_simF hx hp h).bind fun _ s _ t _ _ h => ?_
    exact .ok (by intro v' h; cases h; rfl) h
  · have h' := clearError_mid h
    simp only [Parser.clearError, Mach.clearError]
    rw [F.modify_bind, M.modify_bind]
    by_cases he : t.eof = true
    · rw [if_pos he, if_pos (h.eof.trans he)]
      have hr : PRel x { s with err := s.err.clear x.cfg.mode } { t with err := t.err.clear x.cfg.mode } :=
        ⟨h'.err, h'.header, h'.rawHeader, h'.eof, h'.base, h'.eofd, fun h => (by rw [he] at h; cases h),
          fun h => (by rw [he] at h; cases h), fun h => (by rw [he] at h; cases h)⟩
      refine RSimF.bind (RSimF.lift hp (handleError_sim _ hr (fun _ _ h => h) (fun _ _ h => h))) fun _ s _ t _ _ h => ?_
      exact .ok (by intro v' h; cases h; rfl) h
    · rw [if_neg he, if_neg (by rw [h.eof]; exact he)]
      exact convertRow_simF hx hp rs h'

theorem useFields_simF (hx : x.Good) {s : Parser} {t : Mach} (hp : Heap) (fs : List Bytes) (h : PRel x s t) :
    RSimF (PRel x) (PRel x) (fun _ _ => True) (Lost x) (Parser.useFieldsF w x fs (s, hp)) (Mach.useFields x fs t) := by
  unfold Parser.useFieldsF Mach.useFields
  simp only [Parser.clearError, Mach.clearError]
  rw [F.modify_bind, M.modify_bind]
  refine RSimF.bind (RSimF.lift hp (splitHeaderDataIf_sim (clearError_rel h) (by
    show (s.header.isEmpty && !s.eof) = (t.header.isEmpty && !t.eof); rw [h.header, h.eof]))) fun _ s _ t hp _ h => ?_
  rw [F.get_bind, M.get_bind, h.valid]
  by_cases hv : (!t.valid x.cfg) = true
  · rw [if_pos hv, if_pos hv]; exact .ok trivial h
  · rw [if_neg hv, if_neg hv]
    by_cases hf : fs = []
    · rw [if_pos hf, if_pos hf]
      exact RSimF.lift hp (handleError_sim _ h (fun _ _ h => h) (fun _ _ h => h))
    · rw [if_neg hf, if_neg hf]
      refine RSimF.bind (RSimF.lift hp (mapFields_sim fs fs h)) fun a s' b t' hp hv h' => ?_
      obtain ⟨rfl, hv⟩ := hv
      cases a with
      | none => exact .ok trivial h'.1
      | some sel =>
        obtain ⟨s'', e1, e2⟩ := setMapping_rel sel h'.1 (by rw [h'.2]; exact hv _ rfl)
        simp only
        rw [F.bind_ok (show F.lift (Parser.setMapping sel) (s', hp) = .ok (some ()) (s'', hp) by simp [F.lift, e1]),
          M.bind_of_ok (show Mach.setMapping sel t' = .ok () _ from rfl)]
        rw [F.get_bind, M.get_bind, e2.line]
        by_cases hl : ({ t' with rd := { t'.rd with sel := sel, ncols := t'.header.length } } : Mach).line = 0
        · rw [if_pos hl, if_pos hl]
          exact (ignoreNext_simF hx hp e2).bind fun _ s _ t _ _ h => .ok trivial h
        · rw [if_neg hl, if_neg hl]
          exact .ok trivial e2

theorem tryNext_simF (hx : x.Good) (hml : x.cfg.multiline = false) {s : Parser} {t : Mach} (hp : Heap) (a : Parser.Alt) (h : PRel x s t) :
    RSimF (PRel x) (PRel x) (fun a b => a = b) (Lost x) (Parser.tryNextF w x a (s, hp)) (Mach.tryNext x a t) := by
  unfold Parser.tryNextF Mach.tryNext
  refine (getNext_simF hx hml hp a.reqs h).bind fun v s o t hp hv h => ?_
  have hl := RSimF.lift (J := Lost x) hp (invoke_sim a.fn hv h)
  refine cast ?_ hl
  congr 1
  rw [F.get_bind]
  refine (F.lift_bind M.get _ s hp).trans ?_
  rw [show (F.lift M.get : F Parser Parser) = F.get from rfl, F.get_bind]
  by_cases hval : s.valid x.cfg = true
  · rw [if_pos hval, if_pos hval]
    exact F.lift_bind _ _ s hp
  · rw [if_neg hval, if_neg hval]
    rfl

theorem tryChain_simF (hx : x.Good) (hml : x.cfg.multiline = false) {s : Parser} {t : Mach} (hp : Heap) (a : Parser.Alt) (as : List Parser.Alt)
    (h : PRel x s t) :
    RSimF (PRel x) (PRel x) (fun a b => a = b) (Lost x) (Parser.tryChainF w x a as (s, hp)) (Mach.tryChain x a as t) := by
  unfold Parser.tryChainF Mach.tryChain
  refine (tryNext_simF hx hml hp a h).bind fun r s r' t hp hr h => ?_
  subst hr
  refine RSimF.bind (RSimF.lift hp (orElses_sim as h)) fun rs s rs' t _ hr h => ?_
  subst hr
  exact .ok rfl h

theorem exec_simF (hx : x.Good) (hml : x.cfg.multiline = false) {s : Parser} {t : Mach} (hp : Heap) (op : Op) (h : PRel x s t) :
    RSimF (PRel x) (PRel x) (fun a b => a = b) (Lost x) (op.execF w x (s, hp)) (op.mexec x t) := by
  cases op with
  | getNext rs =>
    refine (getNext_simF hx hml hp rs h).bind fun v s v' t hp hv h => ?_
    rw [F.get_bind, M.get_bind, h.valid]
    split
    · cases v' with
      | none => trivial
      | some v' => rw [hv v' rfl]; exact .ok rfl h
    · exact .ok rfl h
  | ignoreNext => exact (ignoreNext_simF hx hp h).bind fun v s v' t hp hv h => .ok (by rw [hv]) h
  | header => exact RSimF.lift hp (exec_sim hx .header h)
  | rawHeader => exact RSimF.lift hp (exec_sim hx .rawHeader h)
  | fieldExists f => exact RSimF.lift hp (exec_sim hx (.fieldExists f) h)
  | useFields fs => exact (useFields_simF hx hp fs h).bind fun v s v' t hp hv h => .ok rfl h
  | chain a as =>
    simp only [Op.execF, Op.mexec]
    rw [F.get_bind, M.get_bind, h.eof]
    split
    · exact .ok rfl h
    · exact (tryChain_simF hx hml hp a as h).bind fun v s v' t hp hv h => .ok (by rw [hv]) h

theorem readGo_next {ie : Bool} : ∀ (ls : List Bytes) (a : MRd), (MRd.readGo ie ls a).2.next = a.next := by
  intro ls
  induction ls with
  | nil => intro a; rfl
  | cons l ls ih =>
    intro a
    unfold MRd.readGo
    split
    · exact ih _
    · rfl

theorem readR_valid (x : Ctx) (a : MRd) : (a.readR x).2.next.err.valid x.cfg.mode = true := by
  unfold MRd.readR
  rw [readGo_next]
  exact ErrSt.valid_clear _ _

/-- where a reader of a buffer stands -/
structure MSpot (x : Ctx) (a : MRd) : Prop where
  todo : a.todo = rawLines (x.src.data.drop a.off)
  here : a.pos < x.src.data.length → ∃ l, rawLines (x.src.data.drop a.pos) = l :: a.todo ∧ a.look = chop l

theorem readGo_spot {x : Ctx} {ie : Bool} : ∀ (ls : List Bytes) (a : MRd), ls = rawLines (x.src.data.drop a.off) →
    MSpot x (MRd.readGo ie ls a).2 ∧ a.off ≤ (MRd.readGo ie ls a).2.pos ∧ (MRd.readGo ie ls a).2.pos ≤ (MRd.readGo ie ls a).2.off ∧
    ((MRd.readGo ie ls a).1 = true → (MRd.readGo ie ls a).2.pos < x.src.data.length) ∧
    (ie = false → (MRd.readGo ie ls a).2.pos = a.off) ∧ ((MRd.readGo ie ls a).1 = false → x.src.data.length ≤ (MRd.readGo ie ls a).2.pos) := by
  intro ls
  induction ls with
  | nil =>
    intro a h
    have hd : x.src.data.drop a.off = [] := by
      have := rawLines_flatten (x.src.data.drop a.off)
      rw [← h] at this
      exact this.symm
    have hl : x.src.data.length ≤ a.off := List.drop_eq_nil_iff.mp hd
    refine ⟨⟨h, fun hp => ?_⟩, Nat.le_refl _, Nat.le_refl _, fun h => by (cases h), fun _ => rfl, fun _ => hl⟩
    exact absurd hp (Nat.not_lt.mpr hl)
  | cons l ls ih =>
    intro a h
    have hne : x.src.data.drop a.off ≠ [] := by
      intro h0
      rw [h0] at h
      simp [rawLines] at h
    have hc := rawLines_cons hne
    rw [← h] at hc
    obtain ⟨h1, h2⟩ := List.cons.inj hc
    rw [← h1, List.drop_drop] at h2
    unfold MRd.readGo
    split
    · obtain ⟨g1, g2, g3, g4, g5, g6⟩ := ih { a with ln := a.ln + 1, pos := a.off, off := a.off + l.length, crlf := (eolOf l == [CR, LF]), todo := ls, look := MRd.overlay l a.look } h2
      refine ⟨g1, Nat.le_trans (Nat.le_add_right _ _) g2, g3, g4, fun hf => ?_, g6⟩
      rename_i hie
      rw [hf] at hie
      cases hie.1
    · refine ⟨⟨h2, fun _ => ⟨l, ?_, rfl⟩⟩, Nat.le_refl _, Nat.le_add_right _ _, fun _ => ?_, fun _ => rfl, fun h => (by cases h)⟩
      · exact h.symm
      · show a.off < _
        exact Nat.lt_of_not_le fun h' => hne (List.drop_eq_nil_iff.mpr h')

theorem MRd.readR_spot {x : Ctx} {a : MRd} (h : a.todo = rawLines (x.src.data.drop a.off)) :
    MSpot x (a.readR x).2 ∧ a.off ≤ (a.readR x).2.pos ∧ (a.readR x).2.pos ≤ (a.readR x).2.off ∧
    ((a.readR x).1 = true → (a.readR x).2.pos < x.src.data.length) ∧ (x.cfg.ignoreEmpty = false → (a.readR x).2.pos = a.off) ∧
    ((a.readR x).1 = false → x.src.data.length ≤ (a.readR x).2.pos) :=
  readGo_spot a.todo { a with next := { a.next with err := a.next.err.clear x.cfg.mode, cols := none } } h

theorem MSpot.readR {x : Ctx} {a : MRd} (h : MSpot x a) : MSpot x (a.readR x).2 := (MRd.readR_spot h.todo).1

/-- the only thing a call needs of the machine: the line read ahead has not been found wrong yet; and where it is -/
structure MLite (x : Ctx) (t : Mach) : Prop where
  clean : t.eof = false → t.rd.next.err.valid x.cfg.mode = true
  spot : x.src.isBuf → MSpot x t.rd
  eofd : t.eof = true → t.rd.todo = []
  past : t.eof = true → x.src.isBuf → x.src.data.length ≤ t.rd.pos

theorem MLite.kept (x : Ctx) : MKept x (MLite x) where
  hdr h hs := ⟨by intro he; rw [hs.eof] at he; rw [hs.rd]; exact h.clean he, by rw [hs.rd]; exact h.spot,
    by intro he; rw [hs.eof] at he; rw [hs.rd]; exact h.eofd he, by intro he; rw [hs.eof] at he; rw [hs.rd]; exact h.past he⟩
  read h := ⟨fun _ => readR_valid x _, fun hb => (h.spot hb).readR, fun he => readGo_todo _ _ (readGo_nil_of _ _ (h.eofd he)),
    fun he hb => (MRd.readR_spot (h.spot hb).todo).2.2.2.2.2 (readGo_nil_of _ _ (h.eofd he))⟩
  readFrom {t} c n e h := by
    refine ⟨fun _ => readR_valid x _, fun hb => ?_, fun he => readGo_todo _ _ ?_, fun he hb => ?_⟩
    · have : MSpot x { t.rd with cur := c, next := n } := ⟨(h.spot hb).todo, (h.spot hb).here⟩
      exact this.readR
    · have he : (!(MRd.readR x { t.rd with cur := c, next := n }).1) = true := he
      simpa [MRd.readR] using he
    · have he : (!(MRd.readR x { t.rd with cur := c, next := n }).1) = true := he
      have hs : MSpot x { t.rd with cur := c, next := n } := ⟨(h.spot hb).todo, (h.spot hb).here⟩
      exact (MRd.readR_spot hs.todo).2.2.2.2.2 (by simpa using he)
  sel s n h := ⟨h.clean, fun hb => ⟨(h.spot hb).todo, (h.spot hb).here⟩, h.eofd, h.past⟩
  slots c n e hv h := ⟨hv, fun hb => ⟨(h.spot hb).todo, (h.spot hb).here⟩, h.eofd, h.past⟩
  clean h := h.clean

theorem RBase.spot {x : Ctx} {s : Reader} {a : MRd} (h : RBase x s a) (hb : x.src.isBuf) : a.todo = rawLines (x.src.data.drop a.off) := by
  have h1 := h.todo
  have h2 := h.curr
  rw [Src.seek_buf hb] at h2
  rw [h1, ← h2]
  cases hx : x.src with
  | file u d => rw [hx] at hb; exact hb.elim
  | buf p n => rfl

/-- After `std::bad_alloc`, `ignore_next` finds its way back: if it returns true, the parser is like any other. -/
theorem Lost.ignoreNext (hx : x.Good) {s : Parser} (h : Lost x s) : ∃ b s', Parser.ignoreNext x s = .ok b s' ∧ Lost x s' ∧
    (b = true → ∃ t, PRel x s' t ∧ MLite x t) := by
  obtain ⟨t, h⟩ := h
  obtain ⟨r, h1, h2, h3, h4, h5, _, h7⟩ := readNext_spec hx.fine h.base
  refine ⟨_, _, onRd_ok h1 rfl, ⟨{ t with rd := (t.rd.readR x).2 }, ?_⟩, fun hb => ⟨{ t with rd := (t.rd.readR x).2 }, ?_, ?_⟩⟩
  · refine ⟨h.err, h.header, h.rawHeader, h.eof, h2, fun he => readGo_todo _ _ (readGo_nil_of _ _ (h.eofd he)), ?_⟩
    rcases h.idle with hi | hi
    · exact .inl (readGo_todo _ _ (readGo_nil_of _ _ hi))
    · exact .inr ⟨by show r.cur.Idle _; rw [h4]; exact hi.1, h5 hi.2⟩
  · have hn : t.rd.todo ≠ [] := by
      intro hn
      have : (t.rd.readR x).1 = false := by unfold MRd.readR; exact readGo_nil_of _ _ hn
      rw [this] at hb
      cases hb
    have he : t.eof = false := by
      cases he : t.eof with
      | false => rfl
      | true => exact absurd (h.eofd he) hn
    have hi : s.rd.cur.Idle x.cfg ∧ s.rd.next.Idle x.cfg := h.idle.resolve_left hn
    refine ⟨h.err, h.header, h.rawHeader, h.eof, h2, fun h' => (by rw [he] at h'; cases h'), fun _ => h3 (.inl hb), fun _ => ?_, fun _ _ => .inl (h7 hb)⟩
    exact ⟨by show r.cur.Idle _; rw [h4]; exact hi.1, h5 hi.2⟩
  · refine ⟨fun _ => readR_valid x _, fun hbuf => ?_, fun he => readGo_todo _ _ (readGo_nil_of _ _ (h.eofd he)),
      fun he hbuf => (MRd.readR_spot (h.base.spot hbuf)).2.2.2.2.2 (readGo_nil_of _ _ (h.eofd he))⟩
    exact (MRd.readR_spot (h.base.spot hbuf)).1

/-- a parser on which a call may be made -/
def Fit (x : Ctx) (s : Parser) : Prop := ∃ t, PRel x s t ∧ MLite x t

theorem Fit.lost {s : Parser} (h : Fit x s) : Lost x s := by
  obtain ⟨t, h, _⟩ := h
  exact ⟨t, h.mid⟩

theorem MNew.spot {t : Mach} (h : MNew x t) (_ : x.src.isBuf) (hp : t.rd.pos < x.src.data.length) :
    ∃ l, rawLines (x.src.data.drop t.rd.pos) = l :: t.rd.todo ∧ t.rd.look = chop l := by
  have h0 : (Mach.init x).rd.todo = rawLines (x.src.data.drop (Mach.init x).rd.off) := rfl
  have h1 : MSpot x (Mach.first x).rd := (MRd.readR_spot h0).1
  rcases h with h | ⟨h1, _, e, _, rfl⟩
  · rw [firstLine_eq] at h
    cases h
    split at hp
    · rename_i hi
      rw [if_pos hi]
      exact h1.readR.here hp
    · rename_i hi
      rw [if_neg hi]
      exact h1.here hp
  · rw [h1] at hp
    simp at hp

theorem MNew.past {t : Mach} (h : MNew x t) (he : t.eof = true) (_ : x.src.isBuf) : x.src.data.length ≤ t.rd.pos := by
  have h0 : (Mach.init x).rd.todo = rawLines (x.src.data.drop (Mach.init x).rd.off) := rfl
  have h1 := MRd.readR_spot h0
  rcases h with h | ⟨h1, _, e, _, rfl⟩
  · have hf : ((Mach.init x).rd.readR x).1 = false := by
      rw [firstLine_eq] at h
      cases h
      have he : (Mach.first x).eof = true := by
        split at he <;> exact he
      have he : (!((Mach.init x).rd.readR x).1) = true := he
      simpa using he
    have hl := h1.2.2.2.2.2 hf
    rw [firstLine_eq] at h
    cases h
    split
    · have h2 := MRd.readR_spot (x := x) (a := (Mach.first x).rd) h1.1.todo
      exact h2.2.2.2.2.2 (readGo_nil_of _ _ (readGo_todo _ _ hf))
    · exact hl
  · rw [h1]
    exact Nat.zero_le _

theorem Parser.Created.fit (hx : x.Good) {s : Parser} (h : Parser.Created x s) : Fit x s := by
  obtain ⟨t, h1, h2⟩ := h.sim hx
  refine ⟨t, h2, h1.inv.clean, fun hb => ⟨h2.base.spot hb, fun hp => ?_⟩, h2.eofd, fun he hb => h1.past he hb⟩
  exact h1.spot hb hp

/-- every call on such a parser comes back -/
theorem Fit.exec (hx : x.Ok) (hml : x.cfg.multiline = false) {s : Parser} (h : Fit x s) (hp : Heap) (op : Op) :
    (∃ r s' h', op.execF w x (s, hp) = .ok (some r) (s', h') ∧ Fit x s') ∨
    (∃ e s' h', op.execF w x (s, hp) = .exc e (s', h') ∧ Fit x s') ∨
    (∃ s' h', op.execF w x (s, hp) = .ok none (s', h') ∧ Lost x s') := by
  obtain ⟨t, h1, h2⟩ := h
  have hs := exec_simF (w := w) (hx.good hml) hml hp op h1
  have hpost := mexec_post' (MLite.kept x) hx hml op h2
  cases hm : op.mexec x t with
  | ok r t' =>
    rw [hm] at hs hpost
    rcases hs with ⟨a, s', h', e1, _, e2⟩ | ⟨s', h', e1, e2⟩
    · exact .inl ⟨_, _, _, e1, t', e2, hpost⟩
    · exact .inr (.inr ⟨_, _, e1, e2⟩)
  | exc e t' =>
    rw [hm] at hs hpost
    rcases hs with ⟨s', h', e1, e2⟩ | ⟨s', h', e1, e2⟩
    · exact .inr (.inl ⟨_, _, _, e1, t', e2, hpost⟩)
    · exact .inr (.inr ⟨_, _, e1, e2⟩)
  | ub => rw [hm] at hpost; exact hpost.elim
  | nofuel => rw [hm] at hpost; exact hpost.elim

/-- `ignore_next` on a parser for which memory ran out -/
theorem Lost.execIgnore (hx : x.Ok) (hml : x.cfg.multiline = false) {s : Parser} (h : Lost x s) (hp : Heap) :
    (∃ b s' h', Op.ignoreNext.execF w x (s, hp) = .ok (some (.flag b)) (s', h') ∧ Lost x s' ∧ (b = true → Fit x s')) ∨
    (∃ s' h', Op.ignoreNext.execF w x (s, hp) = .ok none (s', h') ∧ Lost x s') := by
  obtain ⟨b, s', h1, h2, h3⟩ := h.ignoreNext (hx.good hml)
  have hf := Parser.follows_ignoreNext (w := w) x s hp
  obtain ⟨t, ht⟩ := h
  have hn := fun s' h' => readNextF_none (w := w) (hp := hp) ht (s' := s') (h' := h') (o := none)
  change ∀ s' h', Parser.ignoreNextF w x (s, hp) = .ok none (s', h') → Lost x s' at hn
  show (∃ b s' h', (Parser.ignoreNextF w x >>= fun b => pure (Ret.flag b)) (s, hp) = _ ∧ _) ∨
    ∃ s' h', (Parser.ignoreNextF w x >>= fun b => pure (Ret.flag b)) (s, hp) = _ ∧ _
  rw [h1] at hf
  generalize hr : Parser.ignoreNextF w x (s, hp) = r at hf
  cases hf with
  | oom hb => exact .inr ⟨_, _, F.bind_none hr, hn _ _ hr⟩
  | ok hc =>
    refine .inl ⟨b, s', _, F.bind_ok hr, h2, fun hb => ?_⟩
    obtain ⟨t, g1, g2⟩ := h3 hb
    exact ⟨t, g1, g2⟩

end

end Ssp
