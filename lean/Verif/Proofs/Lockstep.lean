import Verif.Proofs.MachineChain
/-!
# Two row machines in lockstep

Two inputs with the same lines, in the same setup: the machines stay together.
-/
namespace Ssp
open Spec

theorem AlikeText.rfl {x y : Ctx} {m : Bytes} : AlikeText x y m m := .inl (Eq.refl m)
theorem AlikeText.file {x y : Ctx} {t : Bytes} (h : t ≠ []) : AlikeText x y (x.fileName ++ t) (y.fileName ++ t) :=
  .inr ⟨t, h, Eq.refl _, Eq.refl _⟩

theorem AlikeText.isEmpty {x y : Ctx} {m m' : Bytes} (h : AlikeText x y m m') : m.isEmpty = m'.isEmpty := by
  rcases h with h | ⟨t, h, h1, h2⟩
  · rw [h]
  · subst h1 h2
    cases hx : x.fileName <;> cases hy : y.fileName <;> simp [h]

/-- the outcomes of two calls -/
def LR {σ α : Type} (E : Bytes → Bytes → Prop) (Q : σ → σ → Prop) : Res σ α → Res σ α → Prop
  | .ok a s, .ok b t => a = b ∧ Q s t
  | .exc e s, .exc e' t => E e e' ∧ Q s t
  | .ok _ _, .exc _ _ => False
  | .exc _ _, .ok _ _ => False
  | _, _ => True

namespace LR
variable {σ α β : Type} {E : Bytes → Bytes → Prop} {Q : σ → σ → Prop}

theorem nofuelL {r : Res σ α} : LR E Q .nofuel r := by cases r <;> trivial
theorem nofuelR {r : Res σ α} : LR E Q r .nofuel := by cases r <;> trivial
theorem ubL {r : Res σ α} : LR E Q .ub r := by cases r <;> trivial
theorem ubR {r : Res σ α} : LR E Q r .ub := by cases r <;> trivial

theorem bind {Q' : σ → σ → Prop} {m m' : M σ α} {f f' : α → M σ β} {s t : σ} (h : LR E Q (m s) (m' t))
    (hf : ∀ a s' t', Q s' t' → LR E Q' (f a s') (f' a t')) (hq : ∀ s t, Q s t → Q' s t) :
    LR E Q' ((m >>= f) s) ((m' >>= f') t) := by
  simp only [M.bind_apply]
  cases h1 : m s <;> cases h2 : m' t <;> rw [h1, h2] at h <;> first
    | exact LR.nofuelL
    | exact LR.nofuelR
    | exact LR.ubL
    | exact LR.ubR
    | exact h.elim
    | (obtain ⟨rfl, h⟩ := h; exact hf _ _ _ h)
    | exact ⟨h.1, hq _ _ h.2⟩

theorem bindS {m m' : M σ α} {f f' : α → M σ β} {s t : σ} (h : LR E Q (m s) (m' t))
    (hf : ∀ a s' t', Q s' t' → LR E Q (f a s') (f' a t')) :
    LR E Q ((m >>= f) s) ((m' >>= f') t) := bind h hf fun _ _ h => h

end LR

/-- the unread lines of two machines -/
inductive TodoRel (ml : Bool) : List Bytes → List Bytes → Prop
  | nil : TodoRel ml [] []
  | cons {l l' : Bytes} {ls ls' : List Bytes} : chop l = chop l' → (ml = true → l = l') → TodoRel ml ls ls' →
      TodoRel ml (l :: ls) (l' :: ls')
  | last {l l' : Bytes} : chop l = chop l' → chop l ≠ [] → TodoRel ml [l] [l']

theorem TodoRel.refl {ml : Bool} : ∀ ls, TodoRel ml ls ls
  | [] => .nil
  | _ :: ls => .cons rfl (fun _ => rfl) (TodoRel.refl ls)

structure RdRel (ml : Bool) (P : Prop) (a b : MRd) : Prop where
  cur : a.cur = b.cur
  next : a.next = b.next
  sel : a.sel = b.sel
  ncols : a.ncols = b.ncols
  ln : a.ln = b.ln
  todo : TodoRel ml a.todo b.todo
  look : cutNul a.look = cutNul b.look
  mlook : ml = true → a.look = b.look
  crlf : ml = true → a.todo ≠ [] → a.crlf = b.crlf
  exact : P → a = b

theorem cutNul_overlay {l look : Bytes} (h : l ≠ []) : cutNul (MRd.overlay l look) = [] := by
  cases l with
  | nil => exact absurd rfl h
  | cons c l => cases look <;> simp [cutNul, MRd.overlay]

theorem overlay_nil (l : Bytes) : MRd.overlay l [] = [] := by simp [MRd.overlay]

theorem chop_cons_ne {l : Bytes} (h : chop l ≠ []) : l ≠ [] := by rintro rfl; exact h rfl

theorem readGo_rel {ml ie : Bool} {P : Prop} : ∀ {ls ls' : List Bytes} {a b : MRd}, TodoRel ml ls ls' →
    (∀ l ∈ ls, l ≠ []) → (∀ l ∈ ls', l ≠ []) → a.todo = ls → b.todo = ls' →
    RdRel ml P a b →
    (MRd.readGo ie ls a).1 = (MRd.readGo ie ls' b).1 ∧ RdRel ml P (MRd.readGo ie ls a).2 (MRd.readGo ie ls' b).2 ∧
    ((MRd.readGo ie ls a).1 = true → (MRd.readGo ie ls a).2.look = (MRd.readGo ie ls' b).2.look) := by
  intro ls ls' a b ht
  induction ht generalizing a b with
  | nil =>
    intro _ _ _ _ h
    refine ⟨rfl, ?_, by simp [MRd.readGo]⟩
    simp only [MRd.readGo]
    exact { cur := h.cur, next := h.next, sel := h.sel, ncols := h.ncols, ln := by simp [h.ln], todo := .nil,
            look := by simp [cutNul_zap], mlook := fun hm => by simp [h.mlook hm], crlf := by simp,
            exact := fun hp => by cases h.exact hp; rfl }
  | @cons l l' ls ls' h1 h2 h3 ih =>
    intro hn hn' ha hb h
    have hex : P → l = l' ∧ ls = ls' := fun hp => by
      cases h.exact hp; rw [ha] at hb; cases hb; exact ⟨rfl, rfl⟩
    unfold MRd.readGo
    rw [← h1]
    split
    · refine ih (fun l h => hn l (by simp [h])) (fun l h => hn' l (by simp [h])) rfl rfl ?_
      exact { cur := h.cur, next := h.next, sel := h.sel, ncols := h.ncols, ln := by simp [h.ln], todo := h3,
              look := by simp only [cutNul_overlay (hn l (by simp)), cutNul_overlay (hn' l' (by simp))]
              mlook := fun hm => by simp only [h.mlook hm, h2 hm]
              crlf := fun hm _ => by simp only [h2 hm]
              exact := fun hp => by obtain ⟨rfl, rfl⟩ := hex hp; cases h.exact hp; rfl }
    · refine ⟨rfl, ?_, fun _ => rfl⟩
      exact { cur := h.cur, next := h.next, sel := h.sel, ncols := h.ncols, ln := by simp [h.ln], todo := h3,
              look := rfl
              mlook := fun _ => rfl
              crlf := fun hm _ => by simp only [h2 hm]
              exact := fun hp => by obtain ⟨rfl, rfl⟩ := hex hp; cases h.exact hp; rfl }
  | @last l l' h1 h2 =>
    intro hn hn' ha hb h
    have hex : P → l = l' := fun hp => by
      cases h.exact hp; rw [ha] at hb; cases hb; rfl
    unfold MRd.readGo
    rw [← h1]
    rw [if_neg (fun h => h2 h.2), if_neg (fun h => h2 h.2)]
    refine ⟨rfl, ?_, fun _ => rfl⟩
    exact { cur := h.cur, next := h.next, sel := h.sel, ncols := h.ncols, ln := by simp [h.ln], todo := .nil,
            look := rfl
            mlook := fun _ => rfl
            crlf := by simp
            exact := fun hp => by cases hex hp; cases h.exact hp; rfl }

section
variable {x y : Ctx} {P : Prop} {E : Bytes → Bytes → Prop}

/-- lines are not empty -/
structure RdRel1 (ml : Bool) (P : Prop) (a b : MRd) : Prop extends RdRel ml P a b where
  ne : ∀ l ∈ a.todo, l ≠ []
  ne' : ∀ l ∈ b.todo, l ≠ []

theorem readGo_sub {ie : Bool} : ∀ (ls : List Bytes) (a : MRd), ∀ l ∈ (MRd.readGo ie ls a).2.todo, l ∈ ls := by
  intro ls
  induction ls with
  | nil => intro a l h; simp [MRd.readGo] at h
  | cons l ls ih =>
    intro a k h
    unfold MRd.readGo at h
    split at h
    · exact List.mem_cons_of_mem _ (ih _ _ h)
    · exact List.mem_cons_of_mem _ h

theorem RdRel1.read (hc : Alike x y) {ml : Bool} {a b : MRd} (h : RdRel1 ml P a b) :
    (a.readR x).1 = (b.readR y).1 ∧ RdRel1 ml P (a.readR x).2 (b.readR y).2 ∧
    ((a.readR x).1 = true → (a.readR x).2.look = (b.readR y).2.look) := by
  unfold MRd.readR
  rw [hc.cfg]
  have := readGo_rel (ml := ml) (ie := x.cfg.ignoreEmpty) (P := P)
    (a := { a with next := { a.next with err := a.next.err.clear x.cfg.mode, cols := none } })
    (b := { b with next := { b.next with err := b.next.err.clear x.cfg.mode, cols := none } })
    h.todo h.ne h.ne' rfl rfl
    { cur := h.cur, next := by simp [h.next], sel := h.sel, ncols := h.ncols, ln := h.ln, todo := h.todo,
      look := h.look, mlook := h.mlook, crlf := h.crlf, exact := fun hp => by cases h.exact hp; rfl }
  exact ⟨this.1, ⟨this.2.1, fun l hl => h.ne l (readGo_sub _ _ l hl), fun l hl => h.ne' l (readGo_sub _ _ l hl)⟩,
    this.2.2⟩

theorem readNext_lr (hc : Alike x y) {ml : Bool} {a b : MRd} (h : RdRel1 ml P a b) :
    LR E (RdRel1 ml P) (MRd.readNext x a) (MRd.readNext y b) := by
  rw [MRd.readNext_eq, MRd.readNext_eq]
  exact ⟨(h.read hc).1, (h.read hc).2.1⟩

theorem RdRel1.slot {ml : Bool} {a b : MRd} (h : RdRel1 ml P a b) {c n : ASlot} :
    RdRel1 ml P { a with cur := c, next := n } { b with cur := c, next := n } :=
  { cur := rfl, next := rfl, sel := h.sel, ncols := h.ncols, ln := h.ln, todo := h.todo,
    look := h.look, mlook := h.mlook, crlf := h.crlf, exact := fun hp => by cases h.exact hp; rfl,
    ne := h.ne, ne' := h.ne' }

theorem RdRel1.slots {ml : Bool} {a b : MRd} (h : RdRel1 ml P a b) {c c' n n' : ASlot} (h1 : c = c') (h2 : n = n') :
    RdRel1 ml P { a with cur := c, next := n } { b with cur := c', next := n' } := by
  subst h1 h2; exact h.slot

theorem RdRel1.nxt {ml : Bool} {a b : MRd} (h : RdRel1 ml P a b) {n n' : ASlot} (h2 : n = n') :
    RdRel1 ml P { a with next := n } { b with next := n' } := h.slots h.cur h2

theorem splitText_lr (hE : ∀ m, E m m) {c : Cfg} {d t : Bytes} {ml : Bool} {a b : MRd} (h : RdRel1 ml P a b) :
    LR E (RdRel1 ml P) (MRd.splitText c d t a) (MRd.splitText c d t b) := by
  unfold MRd.splitText
  split
  · exact ⟨rfl, h.nxt (by rw [h.next])⟩
  · split
    · split
      · exact ⟨hE _, h.nxt (by rw [h.next])⟩
      · exact ⟨rfl, h.nxt (by rw [h.next])⟩
    · exact ⟨rfl, h.nxt (by rw [h.next])⟩

theorem resplitText_lr (hE : ∀ m, E m m) {c : Cfg} {d acc more : Bytes} {fs : List Bytes} {k o : Nat} {ml : Bool}
    {a b : MRd} (h : RdRel1 ml P a b) :
    LR E (RdRel1 ml P) (MRd.resplitText c d fs acc k o more a) (MRd.resplitText c d fs acc k o more b) := by
  unfold MRd.resplitText
  dsimp only
  split
  · split
    · exact ⟨hE _, h.nxt (by rw [h.next])⟩
    · exact ⟨rfl, h.nxt (by rw [h.next])⟩
  · exact ⟨rfl, h.nxt (by rw [h.next])⟩

theorem failLimit_lr (hE : ∀ m, E m m) {c : Cfg} {ml : Bool} {a b : MRd} (h : RdRel1 ml P a b) :
    LR E (RdRel1 ml P) (MRd.failLimit c a) (MRd.failLimit c b) := by
  unfold MRd.failLimit
  split
  · exact ⟨hE _, h.nxt (by rw [h.next])⟩
  · exact ⟨rfl, h.nxt (by rw [h.next])⟩

theorem failOpen_lr (hE : ∀ m, E m m) {c : Cfg} {m : Bytes} {ml : Bool} {a b : MRd} (h : RdRel1 ml P a b) :
    LR E (RdRel1 ml P) (MRd.failOpen c m a) (MRd.failOpen c m b) := by
  unfold MRd.failOpen
  split
  · exact ⟨hE _, h.nxt (by rw [h.next])⟩
  · exact ⟨rfl, h.nxt (by rw [h.next])⟩
  · exact ⟨rfl, h.nxt (by rw [h.next])⟩

theorem append_lr {a b : MRd} (h : RdRel1 true P a b) : LR E (RdRel1 true P) (MRd.append a) (MRd.append b) := by
  have ht := h.todo
  have hne := h.ne
  have hne' := h.ne'
  unfold MRd.append
  generalize ha : a.todo = la at ht hne
  generalize hb : b.todo = lb at ht hne'
  cases ht with
  | nil =>
    refine ⟨rfl, ?_⟩
    exact { cur := h.cur, next := by simp [h.next], sel := h.sel, ncols := h.ncols, ln := h.ln, todo := .nil,
            look := h.look, mlook := h.mlook, crlf := fun _ h => absurd rfl h, exact := fun hp => by cases h.exact hp; rfl,
            ne := by simp, ne' := by simp }
  | @cons l l' ls ls' h1 h2 h3 =>
    have hcr := h.crlf rfl (by simp [ha])
    cases h2 rfl
    refine ⟨rfl, ?_⟩
    exact { cur := h.cur, next := by simp [h.next], sel := h.sel, ncols := h.ncols, ln := by simp [h.ln], todo := h3,
            look := by simp only [h.mlook rfl, hcr]
            mlook := fun _ => by simp only [h.mlook rfl, hcr]
            crlf := fun _ _ => rfl
            exact := fun hp => by cases h.exact hp; rw [ha] at hb; cases hb; rfl
            ne := fun l h => hne l (by simp [show l ∈ ls from h])
            ne' := fun l h => hne' l (by simp [show l ∈ ls' from h]) }
  | @last l l' h1 h2 =>
    have hcr := h.crlf rfl (by simp [ha])
    refine ⟨rfl, ?_⟩
    exact { cur := h.cur, next := by simp [h.next], sel := h.sel, ncols := h.ncols, ln := by simp [h.ln], todo := .nil,
            look := by simp only [h.mlook rfl, hcr, h1]
            mlook := fun _ => by simp only [h.mlook rfl, hcr, h1]
            crlf := fun _ h => absurd rfl h
            exact := fun hp => by cases h.exact hp; rw [ha] at hb; cases hb; rfl
            ne := by simp
            ne' := by simp }

theorem escapeLoop_lr (hc : Alike x y) (hE : ∀ m, E m m) {pre : Bytes} {before : Nat} : ∀ (f f' limit : Nat) {a b : MRd},
    RdRel1 true P a b → LR E (RdRel1 true P) (MRd.escapeLoop x pre before f limit a) (MRd.escapeLoop y pre before f' limit b) := by
  intro f
  induction f with
  | zero => intro f' limit a b _; exact LR.nofuelL
  | succ f ih =>
    intro f' limit a b h
    cases f' with
    | zero => exact LR.nofuelR
    | succ f' =>
      unfold MRd.escapeLoop
      simp only [M.get_bind]
      rw [h.mlook rfl, hc.cfg]
      split
      · split
        · exact (failLimit_lr hE h).bindS fun _ _ _ h => ⟨rfl, h⟩
        · refine (append_lr h).bindS fun r a b h => ?_
          split
          · exact ih _ _ h
          · exact (failOpen_lr hE h).bindS fun _ _ _ h => ⟨rfl, h⟩
      · exact ⟨rfl, h⟩

theorem escapeLoopIf_lr (hc : Alike x y) (hE : ∀ m, E m m) {pre : Bytes} {before limit : Nat} {a b : MRd}
    (h : RdRel1 x.cfg.multiline P a b) :
    LR E (RdRel1 x.cfg.multiline P) (MRd.escapeLoopIf x pre before limit a) (MRd.escapeLoopIf y pre before limit b) := by
  unfold MRd.escapeLoopIf
  rw [hc.cfg]
  split
  · rename_i hm
    rw [hm.1] at h ⊢
    exact escapeLoop_lr hc hE _ _ _ h
  · exact ⟨rfl, h⟩

theorem quoteLoop_lr (hc : Alike x y) (hE : ∀ m, E m m) (hml : x.cfg.multiline = true) : ∀ (f f' limit : Nat) (fs : List Bytes) (acc : Bytes)
    (n o : Nat) (tail : Bytes) {a b : MRd}, RdRel1 true P a b →
    LR E (RdRel1 true P) (MRd.quoteLoop x f limit fs acc n o tail a) (MRd.quoteLoop y f' limit fs acc n o tail b) := by
  intro f
  induction f with
  | zero => intros; exact LR.nofuelL
  | succ f ih =>
    intro f' limit fs acc n o tail a b h
    cases f' with
    | zero => exact LR.nofuelR
    | succ f' =>
      unfold MRd.quoteLoop
      simp only [M.get_bind]
      rw [h.mlook rfl, hc.cfg, hc.delim]
      split
      · exact failLimit_lr hE h
      · refine (append_lr h).bindS fun r a1 b1 h => ?_
        split
        · have he := escapeLoopIf_lr (pre := acc ++ tail) (before := b.look.length) (limit := limit + 1) hc hE (by rw [hml]; exact h)
          rw [hml] at he
          refine he.bindS fun r a2 b2 h => ?_
          cases r with
          | none => exact ⟨rfl, h⟩
          | some l =>
            simp only [M.get_bind]
            rw [h.mlook rfl]
            refine (resplitText_lr hE h).bindS fun _ a3 b3 h => ?_
            cases (decode x.cfg x.delim .quoted acc (cutNul (tail ++ b2.look.drop b.look.length))).2 with
            | openQuote acc' => exact ih _ _ _ _ _ _ _ h
            | _ => exact ⟨rfl, h⟩
        · exact failOpen_lr hE h

theorem parse_lr (hc : Alike x y) (hE : ∀ m, E m m) {a b : MRd} (h : RdRel1 x.cfg.multiline P a b) :
    LR E (RdRel1 x.cfg.multiline P) (MRd.parse x a) (MRd.parse y b) := by
  unfold MRd.parse
  refine (escapeLoopIf_lr hc hE h).bindS fun r a b h => ?_
  cases r with
  | none => exact ⟨rfl, h⟩
  | some l =>
    simp only [M.get_bind]
    have hml := h.mlook
    rw [h.look, hc.cfg, hc.delim]
    refine (splitText_lr hE h).bindS fun _ a1 b1 h => ?_
    split
    · rename_i hm
      rw [hml hm.1]
      rw [hm.1] at h ⊢
      cases hd : (decodeRow x.cfg x.delim (cutNul b.look)).2 with
      | openQuote acc => exact quoteLoop_lr hc hE hm.1 _ _ _ _ _ _ _ _ h
      | _ => exact ⟨rfl, h⟩
    · exact ⟨rfl, h⟩

theorem update_lr {ml : Bool} {a b : MRd} (h : RdRel1 ml P a b) : LR E (RdRel1 ml P) (MRd.update a) (MRd.update b) :=
  ⟨rfl, h.slots h.next h.cur⟩

theorem convertCur_lr (hE : ∀ m, E m m) {c : Cfg} {rs : List Req} {ml : Bool} {a b : MRd} (h : RdRel1 ml P a b) :
    LR E (RdRel1 ml P) (MRd.convertCur c rs a) (MRd.convertCur c rs b) := by
  have key : ∀ c c', c = c' → RdRel1 ml P { a with cur := c } { b with cur := c' } := fun c c' hc => h.slots hc h.next
  unfold MRd.convertCur
  dsimp only
  simp only [h.cur, h.sel, h.ncols]
  simp only [h.sel, h.ncols] at key
  split
  · exact ⟨rfl, key _ _ rfl⟩
  · split
    · trivial
    · split
      · exact ⟨rfl, key _ _ rfl⟩
      · split
        · exact ⟨hE _, key _ _ rfl⟩
        · exact ⟨rfl, key _ _ rfl⟩

/-! ## The parser -/

structure LRel (x y : Ctx) (P : Prop) (s t : Mach) : Prop where
  flag : s.err.flag = t.err.flag
  msg : AlikeText x y s.err.msg t.err.msg
  header : s.header = t.header
  rawHeader : s.rawHeader = t.rawHeader
  eof : s.eof = t.eof
  rd : RdRel1 x.cfg.multiline P s.rd t.rd

local notation "LL" => LR (AlikeText x y) (LRel x y P)

theorem LRel.valid (hc : Alike x y) {s t : Mach} (h : LRel x y P s t) : s.valid x.cfg = t.valid y.cfg := by
  unfold Mach.valid ErrSt.valid
  rw [hc.cfg, h.flag, h.msg.isEmpty]

theorem LRel.line {s t : Mach} (h : LRel x y P s t) : s.line = t.line := by unfold Mach.line; rw [h.rd.ln]

theorem onRd_lr {α : Type} {m m' : M MRd α} {s t : Mach} (hm : LR (fun m m' => m = m') (RdRel1 x.cfg.multiline P) (m s.rd) (m' t.rd))
    (h : LRel x y P s t) : LL (Mach.onRd m s) (Mach.onRd m' t) := by
  unfold Mach.onRd
  cases h1 : m s.rd <;> cases h2 : m' t.rd <;> rw [h1, h2] at hm <;> simp only [LR] at hm ⊢ <;> try exact hm
  · exact ⟨hm.1, ⟨h.flag, h.msg, h.header, h.rawHeader, h.eof, hm.2⟩⟩
  · exact ⟨.inl hm.1, ⟨h.flag, h.msg, h.header, h.rawHeader, h.eof, hm.2⟩⟩

theorem tryCatch_lr {α : Type} {m m' : M Mach α} {f f' : Bytes → M Mach α} {s t : Mach}
    (hm : LR (fun m m' => m = m') (LRel x y P) (m s) (m' t))
    (hf : ∀ e s t, LRel x y P s t → LL (f e s) (f' e t)) :
    LL (Mach.tryCatch m f s) (Mach.tryCatch m' f' t) := by
  unfold Mach.tryCatch
  cases h1 : m s <;> cases h2 : m' t <;> rw [h1, h2] at hm <;> first
    | exact LR.nofuelL
    | exact LR.nofuelR
    | exact LR.ubL
    | exact LR.ubR
    | exact hm.elim
    | exact hm
    | (obtain ⟨rfl, hm⟩ := hm; exact hf _ _ _ hm)

theorem onRd_lr' {α : Type} {m m' : M MRd α} {s t : Mach} (hm : LR (fun m m' => m = m') (RdRel1 x.cfg.multiline P) (m s.rd) (m' t.rd))
    (h : LRel x y P s t) : LR (fun m m' => m = m') (LRel x y P) (Mach.onRd m s) (Mach.onRd m' t) := by
  unfold Mach.onRd
  cases h1 : m s.rd <;> cases h2 : m' t.rd <;> rw [h1, h2] at hm <;> simp only [LR] at hm ⊢ <;> try exact hm
  · exact ⟨hm.1, ⟨h.flag, h.msg, h.header, h.rawHeader, h.eof, hm.2⟩⟩
  · exact ⟨hm.1, ⟨h.flag, h.msg, h.header, h.rawHeader, h.eof, hm.2⟩⟩

theorem readLine_lr' (hc : Alike x y) {s t : Mach} (h : LRel x y P s t) :
    LR (fun m m' => m = m') (LRel x y P) (Mach.readLine x s) (Mach.readLine y t) := by
  refine (onRd_lr' (readNext_lr hc h.rd) h).bindS fun b s t h => ?_
  exact ⟨rfl, ⟨h.flag, h.msg, h.header, h.rawHeader, rfl, h.rd⟩⟩

theorem LR.alikeText {α : Type} {s t : Res Mach α} (h : LR (fun m m' => m = m') (LRel x y P) s t) : LL s t := by
  cases s <;> cases t <;> simp only [LR] at h ⊢ <;> try exact h
  exact ⟨.inl h.1, h.2⟩

theorem readLine_lr (hc : Alike x y) {s t : Mach} (h : LRel x y P s t) : LL (Mach.readLine x s) (Mach.readLine y t) :=
  (readLine_lr' hc h).alikeText

theorem rethrow_lr {α : Type} {e : Bytes} {s t : Mach} (h : LRel x y P s t) :
    LL (Mach.decorateRethrow (α := α) x e s) (Mach.decorateRethrow y e t) := by
  unfold Mach.decorateRethrow
  refine ⟨?_, h⟩
  rw [h.line]
  simp only [List.append_assoc]
  exact .file (by simp [bs])

theorem LRel.setErr {c : Cfg} {s t : Mach} (h : LRel x y P s t) {m m' : Bytes} (hm : AlikeText x y m m') :
    LRel x y P { s with err := s.err.set c.mode m } { t with err := t.err.set c.mode m' } := by
  refine ⟨?_, ?_, h.header, h.rawHeader, h.eof, h.rd⟩
  · unfold ErrSt.set; split <;> simp [h.flag]
  · unfold ErrSt.set; split <;> simp [h.msg, hm]

theorem handleError_lr {c : Cfg} {m m' : Bytes} (hm : AlikeText x y m m') {s t : Mach} (h : LRel x y P s t) :
    LL (Mach.handleError c m s) (Mach.handleError c m' t) := by
  unfold Mach.handleError
  cases hmode : c.mode with
  | throw => exact ⟨hm, h⟩
  | string => exact ⟨rfl, by have := h.setErr (c := c) hm; rw [hmode] at this; exact this⟩
  | bool => exact ⟨rfl, by have := h.setErr (c := c) hm; rw [hmode] at this; exact this⟩

theorem LRel.clear {c : Cfg} {s t : Mach} (h : LRel x y P s t) :
    LRel x y P { s with err := s.err.clear c.mode } { t with err := t.err.clear c.mode } := by
  refine ⟨?_, ?_, h.header, h.rawHeader, h.eof, h.rd⟩
  · unfold ErrSt.clear; split <;> simp [h.flag]
  · unfold ErrSt.clear; split
    · exact .rfl
    · exact h.msg
    · exact h.msg

theorem clearError_lr {c : Cfg} {s t : Mach} (h : LRel x y P s t) :
    LL (Mach.clearError c s) (Mach.clearError c t) := ⟨rfl, h.clear⟩

theorem hic_lr (hc : Alike x y) {s t : Mach} (h : LRel x y P s t) :
    LL (Mach.handleErrorInvalidConversion x s) (Mach.handleErrorInvalidConversion y t) := by
  unfold Mach.handleErrorInvalidConversion
  refine ⟨rfl, ?_⟩
  dsimp only
  rw [hc.cfg, h.rd.ln, h.rd.cur]
  refine h.setErr ?_
  simp only [List.append_assoc]
  exact .file (by simp [bs])

theorem hicIf_lr (hc : Alike x y) {b : Bool} {s t : Mach} (h : LRel x y P s t) :
    LL ((if b then pure () else Mach.handleErrorInvalidConversion x : M Mach Unit) s)
      ((if b then pure () else Mach.handleErrorInvalidConversion y : M Mach Unit) t) := by
  split
  · exact ⟨rfl, h⟩
  · exact hic_lr hc h

theorem parseRow_lr (hc : Alike x y) {s t : Mach} (h : LRel x y P s t) :
    LL (Mach.parseRow x s) (Mach.parseRow y t) := by
  unfold Mach.parseRow
  rw [hc.cfg]
  cases x.cfg.mode with
  | throw =>
    refine tryCatch_lr (onRd_lr' (parse_lr hc (fun _ => rfl) h.rd) h) fun e s t h => ?_
    exact (readLine_lr hc h).bindS fun _ s t h => rethrow_lr h
  | string => exact onRd_lr (parse_lr hc (fun _ => rfl) h.rd) h
  | bool => exact onRd_lr (parse_lr hc (fun _ => rfl) h.rd) h

theorem parseRowIf_lr (hc : Alike x y) {s t : Mach} (h : LRel x y P s t) :
    LL (Mach.parseRowIf x s) (Mach.parseRowIf y t) := by
  unfold Mach.parseRowIf
  rw [h.eof]
  split
  · exact ⟨rfl, h⟩
  · exact parseRow_lr hc h

theorem convertRow_lr (hc : Alike x y) {rs : List Req} {s t : Mach} (h : LRel x y P s t) :
    LL (Mach.convertRow x rs s) (Mach.convertRow y rs t) := by
  have hcase : ∀ m, m ≠ .throw → x.cfg.mode = m → LL (Mach.convertRow x rs s) (Mach.convertRow y rs t) := by
    intro m hm hmode
    have e : ∀ z : Ctx, z.cfg = x.cfg → Mach.convertRow z rs = (do
        let v ← Mach.onRd (MRd.convertCur x.cfg rs)
        let s ← M.get
        (if s.rd.cur.err.valid x.cfg.mode then pure () else Mach.handleErrorInvalidConversion z)
        Mach.readLine z
        pure v) := by
      intro z hz
      unfold Mach.convertRow
      rw [hz, hmode]
      cases m with
      | throw => exact absurd rfl hm
      | string => rfl
      | bool => rfl
    rw [e x rfl, e y hc.cfg]
    refine (onRd_lr (convertCur_lr (fun _ => rfl) h.rd) h).bindS fun v s t h => ?_
    simp only [M.get_bind]
    rw [h.rd.cur]
    refine (hicIf_lr hc h).bindS fun _ s t h => ?_
    exact (readLine_lr hc h).bindS fun _ s t h => ⟨rfl, h⟩
  cases hmode : x.cfg.mode with
  | string => exact hcase _ (by simp) hmode
  | bool => exact hcase _ (by simp) hmode
  | throw =>
    unfold Mach.convertRow
    rw [hc.cfg, hmode]
    refine tryCatch_lr ?_ fun e s t h => ?_
    · refine (onRd_lr' (convertCur_lr (fun _ => rfl) h.rd) h).bindS fun v s t h => ?_
      exact (readLine_lr' hc h).bindS fun _ s t h => ⟨rfl, h⟩
    · exact (readLine_lr hc h).bindS fun _ s t h => rethrow_lr h

theorem getNext_lr (hc : Alike x y) {rs : List Req} {s t : Mach} (h : LRel x y P s t) :
    LL (Mach.getNext x rs s) (Mach.getNext y rs t) := by
  unfold Mach.getNext
  refine (parseRowIf_lr hc h).bindS fun _ s t h => ?_
  refine (onRd_lr (update_lr h.rd) h).bindS fun _ s t h => ?_
  simp only [M.get_bind]
  rw [h.rd.cur, hc.cfg, h.eof]
  split
  · refine (hic_lr hc h).bindS fun _ s t h => ?_
    exact (readLine_lr hc h).bindS fun _ s t h => ⟨rfl, h⟩
  · refine (clearError_lr h).bindS fun _ s t h => ?_
    split
    · refine (handleError_lr ?_ h).bindS fun _ s t h => ⟨rfl, h⟩
      exact .file (by decide)
    · exact convertRow_lr hc h

theorem strictSplit_lr (hc : Alike x y) {s t : Mach} (h : LRel x y P s t) :
    LL (Mach.strictSplit x s) (Mach.strictSplit y t) := by
  have hh : Parser.headerCfg y = Parser.headerCfg x := by unfold Parser.headerCfg; rw [hc.cfg, hc.wrapped]
  have key : ∀ m m', AlikeText x y m m' → LRel x y P { s with err := s.err.set x.cfg.mode m } { t with err := t.err.set x.cfg.mode m' } :=
    fun m m' hm => h.setErr hm
  unfold Mach.strictSplit
  rw [hh, hc.delim, hc.cfg]
  rw [h.rawHeader] at key ⊢
  cases Spl.split (Parser.headerCfg x) x.delim { mem := t.rawHeader ++ [NUL] } with
  | ok a sp =>
    simp only
    split
    · exact ⟨rfl, h⟩
    · refine ⟨rfl, key _ _ ?_⟩
      simp only [List.append_assoc]
      exact .file (by simp [bs])
  | exc e sp =>
    refine ⟨?_, h⟩
    simp only [List.append_assoc]
    exact .file (by simp [bs])
  | ub => trivial
  | nofuel => trivial

theorem columnsOf_lr {sp : Spl} {s t : Mach} (h : LRel x y P s t) :
    LL (Mach.columnsOf sp s) (Mach.columnsOf sp t) := by
  unfold Mach.columnsOf
  split
  · exact ⟨rfl, h⟩
  · trivial

theorem getHeader_lr (hc : Alike x y) {s t : Mach} (h : LRel x y P s t) :
    LL (Mach.getHeader x s) (Mach.getHeader y t) := by
  unfold Mach.getHeader
  rw [hc.cfg]
  refine (clearError_lr h).bindS fun _ s t h => ?_
  refine (strictSplit_lr hc h).bindS fun r s t h => ?_
  cases r with
  | none => exact ⟨rfl, h⟩
  | some sp => exact columnsOf_lr h

theorem addHeader_lr (hc : Alike x y) : ∀ (fs : List Bytes) {s t : Mach}, LRel x y P s t →
    LL (Mach.addHeader x fs s) (Mach.addHeader y fs t) := by
  intro fs
  induction fs with
  | nil => intro s t h; exact ⟨rfl, h⟩
  | cons f fs ih =>
    intro s t h
    unfold Mach.addHeader
    simp only [M.get_bind]
    rw [h.header, hc.cfg]
    split
    · refine (handleError_lr ?_ h).bindS fun _ s t h => ?_
      · simp only [List.append_assoc]
        exact .file (by simp [bs])
      · exact ⟨rfl, ⟨h.flag, h.msg, rfl, h.rawHeader, h.eof, h.rd⟩⟩
    · simp only [M.modify_bind]
      exact ih ⟨h.flag, h.msg, by simp [h.header], h.rawHeader, h.eof, h.rd⟩

theorem splitHeaderDataIf_lr (hc : Alike x y) {p : Mach → Bool} {s t : Mach} (hp : p s = p t) (h : LRel x y P s t) :
    LL (Mach.splitHeaderDataIf x p s) (Mach.splitHeaderDataIf y p t) := by
  unfold Mach.splitHeaderDataIf
  rw [hp]
  split
  · unfold Mach.splitHeaderData
    refine (strictSplit_lr hc h).bindS fun r s t h => ?_
    cases r with
    | none => exact ⟨rfl, h⟩
    | some sp => exact (columnsOf_lr h).bindS fun fs s t h => addHeader_lr hc _ h
  · exact ⟨rfl, h⟩

theorem fieldExists_lr (hc : Alike x y) {f : Bytes} {s t : Mach} (h : LRel x y P s t) :
    LL (Mach.fieldExists x f s) (Mach.fieldExists y f t) := by
  unfold Mach.fieldExists
  rw [hc.cfg]
  refine (clearError_lr h).bindS fun _ s t h => ?_
  refine (splitHeaderDataIf_lr hc (by simp [h.header]) h).bindS fun _ s t h => ?_
  simp only [M.get_bind]
  have hv := h.valid hc
  rw [hc.cfg] at hv
  rw [hv]
  split
  · exact ⟨rfl, h⟩
  · exact ⟨by unfold Mach.headerIndex; rw [h.header], h⟩

theorem mapFields_lr (hc : Alike x y) {all : List Bytes} : ∀ (fs : List Bytes) {s t : Mach}, LRel x y P s t →
    LL (Mach.mapFields x all fs s) (Mach.mapFields y all fs t) := by
  intro fs
  induction fs with
  | nil => intro s t h; exact ⟨rfl, h⟩
  | cons f fs ih =>
    intro s t h
    unfold Mach.mapFields
    rw [hc.cfg]
    split
    · refine (handleError_lr ?_ h).bindS fun _ s t h => ⟨rfl, h⟩
      simp only [List.append_assoc]
      exact .file (by simp [bs])
    · simp only [M.get_bind]
      have he : s.headerIndex f = t.headerIndex f := by unfold Mach.headerIndex; rw [h.header]
      rw [he]
      cases t.headerIndex f with
      | none =>
        refine (handleError_lr ?_ h).bindS fun _ s t h => ⟨rfl, h⟩
        simp only [List.append_assoc]
        exact .file (by simp [bs])
      | some i =>
        refine (ih h).bindS fun r s t h => ?_
        cases r with
        | none => exact ⟨rfl, h⟩
        | some r => exact ⟨rfl, h⟩

theorem useFields_lr (hc : Alike x y) {fs : List Bytes} {s t : Mach} (h : LRel x y P s t) :
    LL (Mach.useFields x fs s) (Mach.useFields y fs t) := by
  unfold Mach.useFields
  rw [hc.cfg]
  refine (clearError_lr h).bindS fun _ s t h => ?_
  refine (splitHeaderDataIf_lr hc (by simp [h.header, h.eof]) h).bindS fun _ s t h => ?_
  simp only [M.get_bind]
  have hv := h.valid hc
  rw [hc.cfg] at hv
  rw [hv]
  split
  · exact ⟨rfl, h⟩
  · split
    · exact handleError_lr .rfl h
    · refine (mapFields_lr hc _ h).bindS fun r s t h => ?_
      cases r with
      | none => exact ⟨rfl, h⟩
      | some sel =>
        refine LR.bindS (Q := LRel x y P) ?_ fun _ s t h => ?_
        · refine ⟨rfl, ⟨h.flag, h.msg, h.header, h.rawHeader, h.eof, ?_⟩⟩
          exact { cur := h.rd.cur, next := h.rd.next, sel := rfl, ncols := by simp [h.header], ln := h.rd.ln, todo := h.rd.todo,
                  look := h.rd.look, mlook := h.rd.mlook, crlf := h.rd.crlf
                  exact := fun hp => by simp [h.rd.exact hp, h.header]
                  ne := h.rd.ne, ne' := h.rd.ne' }
        · simp only [M.get_bind]
          rw [h.line]
          split
          · exact (onRd_lr (readNext_lr hc h.rd) h).bindS fun _ s t h => ⟨rfl, h⟩
          · exact ⟨rfl, h⟩

theorem tryInvoke_lr (hc : Alike x y) {v : Option (List Val)} {fn : Option (List Val → Option Bool)} {s t : Mach}
    (h : LRel x y P s t) : LL (Mach.tryInvoke x v fn s) (Mach.tryInvoke y v fn t) := by
  unfold Mach.tryInvoke
  cases fn with
  | none => exact ⟨rfl, h⟩
  | some f =>
    cases v with
    | none => trivial
    | some v =>
      simp only
      cases f v with
      | none => exact ⟨rfl, h⟩
      | some b =>
        cases b with
        | true => exact ⟨rfl, h⟩
        | false =>
          rw [hc.cfg]
          exact (handleError_lr (.file (by decide)) h).bindS fun _ s t h => ⟨rfl, h⟩

theorem optional_lr {b : Bool} {v : Option (List Val)} {s t : Mach} (h : LRel x y P s t) :
    LL (Mach.optional b v s) (Mach.optional b v t) := by
  unfold Mach.optional
  split
  · cases v with
    | none => trivial
    | some v => exact ⟨rfl, h⟩
  · exact ⟨rfl, h⟩

theorem tryNext_lr (hc : Alike x y) {a : Parser.Alt} {s t : Mach} (h : LRel x y P s t) :
    LL (Mach.tryNext x a s) (Mach.tryNext y a t) := by
  unfold Mach.tryNext
  refine (getNext_lr hc h).bindS fun v s t h => ?_
  simp only [M.get_bind]
  rw [h.valid hc]
  split
  · refine (tryInvoke_lr hc h).bindS fun b s t h => ?_
    simp only [M.get_bind]
    rw [h.valid hc]
    exact (optional_lr h).bindS fun _ s t h => ⟨rfl, h⟩
  · exact ⟨rfl, h⟩

theorem trySame_lr (hc : Alike x y) {rs : List Req} {s t : Mach} (h : LRel x y P s t) :
    LL (Mach.trySame x rs s) (Mach.trySame y rs t) := by
  unfold Mach.trySame
  rw [hc.cfg]
  refine (clearError_lr h).bindS fun _ s t h => ?_
  refine (onRd_lr (convertCur_lr (fun _ => rfl) h.rd) h).bindS fun v s t h => ?_
  simp only [M.get_bind]
  rw [h.rd.cur]
  exact (hicIf_lr hc h).bindS fun _ s t h => ⟨rfl, h⟩

theorem orElse_lr (hc : Alike x y) {a : Parser.Alt} {s t : Mach} (h : LRel x y P s t) :
    LL (Mach.orElse x a s) (Mach.orElse y a t) := by
  unfold Mach.orElse
  simp only [M.get_bind]
  rw [h.valid hc]
  split
  · exact ⟨rfl, h⟩
  · refine (trySame_lr hc h).bindS fun v s t h => ?_
    simp only [M.get_bind]
    rw [h.valid hc]
    split
    · refine (tryInvoke_lr hc h).bindS fun b s t h => ?_
      simp only [M.get_bind]
      rw [h.valid hc]
      exact (optional_lr h).bindS fun _ s t h => ⟨rfl, h⟩
    · exact ⟨rfl, h⟩

theorem orElses_lr (hc : Alike x y) : ∀ (as : List Parser.Alt) {s t : Mach}, LRel x y P s t →
    LL (Mach.orElses x as s) (Mach.orElses y as t) := by
  intro as
  induction as with
  | nil => intro s t h; exact ⟨rfl, h⟩
  | cons a as ih =>
    intro s t h
    unfold Mach.orElses
    refine (orElse_lr hc h).bindS fun r s t h => ?_
    exact (ih h).bindS fun _ s t h => ⟨rfl, h⟩

theorem mexec_lr (hc : Alike x y) (op : Op) {s t : Mach} (h : LRel x y P s t) : LL (op.mexec x s) (op.mexec y t) := by
  cases op with
  | getNext rs =>
    refine (getNext_lr hc h).bindS fun v s t h => ?_
    simp only [M.get_bind]
    rw [h.valid hc]
    split
    · cases v with
      | none => trivial
      | some v => exact ⟨rfl, h⟩
    · exact ⟨rfl, h⟩
  | ignoreNext => exact (onRd_lr (readNext_lr hc h.rd) h).bindS fun _ s t h => ⟨rfl, h⟩
  | header => exact (getHeader_lr hc h).bindS fun _ s t h => ⟨rfl, h⟩
  | rawHeader =>
    simp only [Op.mexec, M.get_bind]
    exact ⟨by rw [h.rawHeader], h⟩
  | fieldExists f => exact (fieldExists_lr hc h).bindS fun _ s t h => ⟨rfl, h⟩
  | useFields fs => exact (useFields_lr hc h).bindS fun _ s t h => ⟨rfl, h⟩
  | chain a as =>
    simp only [Op.mexec, M.get_bind]
    rw [h.eof]
    split
    · exact ⟨rfl, h⟩
    · refine LR.bindS (Q := LRel x y P) ?_ fun _ s t h => ⟨rfl, h⟩
      unfold Mach.tryChain
      refine (tryNext_lr hc h).bindS fun r s t h => ?_
      exact (orElses_lr hc _ h).bindS fun _ s t h => ⟨rfl, h⟩

end
end Ssp
