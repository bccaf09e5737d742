import Verif.Proofs.MachineRun
import Verif.Proofs.ParseMany
/-!
# With multiline, too, every call comes back
-/
namespace Ssp
open Spec

/-- what a part of `parse` keeps -/
structure Kep (x : Ctx) (a a' : MRd) : Prop where
  base : MBase x a'
  cur : a'.cur = a.cur
  sel : a'.sel = a.sel
  ncols : a'.ncols = a.ncols
  fewer : a'.todo.length ≤ a.todo.length
  ln : a.ln ≤ a'.ln

theorem Kep.trans {x : Ctx} {a b c : MRd} (h : Kep x a b) (h' : Kep x b c) : Kep x a c :=
  ⟨h'.base, h'.cur.trans h.cur, h'.sel.trans h.sel, h'.ncols.trans h.ncols, Nat.le_trans h'.fewer h.fewer, Nat.le_trans h.ln h'.ln⟩

theorem Kep.slot {x : Ctx} {a : MRd} (h : MBase x a) (n : ASlot) : Kep x a { a with next := n } :=
  ⟨⟨h.1, h.2, h.3, h.4⟩, rfl, rfl, rfl, Nat.le_refl _, Nat.le_refl _⟩

theorem append_tot {x : Ctx} (hml : x.cfg.multiline = true) {a : MRd} (h : MBase x a) :
    ∃ b a', MRd.append a = .ok b a' ∧ Kep x a a' ∧ a'.next.err = a.next.err ∧ a'.next.serr = a.next.serr ∧
      (b = true → a'.todo.length < a.todo.length) := by
  cases ht : a.todo with
  | nil =>
    refine ⟨false, { a with pos := a.off, tries := a.tries + 1, next := { a.next with cols := none } },
      by simp [MRd.append, ht], ⟨⟨h.todo, h.off, ?_, ?_⟩, rfl, rfl, rfl, Nat.le_refl _, Nat.le_refl _⟩, rfl, rfl, by simp⟩
    · intro _
      have := h.todo
      rw [ht] at this
      exact List.drop_eq_nil_iff.mp this.symm
    · intro h; rw [hml] at h; cases h
  | cons l ls =>
    have htodo := h.todo
    rw [ht] at htodo
    have hlt : a.ln < (rawLines x.src.data).length := by
      false_or_by_contra
      rw [List.drop_eq_nil_of_le (by omega)] at htodo
      cases htodo
    rw [List.drop_eq_getElem_cons hlt] at htodo
    injection htodo with h1 h2
    refine ⟨true, { a with
        look := (a.look ++ if a.crlf then [CR, LF] else [LF]) ++ chop l, ln := a.ln + 1, pos := a.off
        off := a.off + l.length, crlf := eolOf l == [CR, LF], todo := ls, next := { a.next with cols := none } },
      by simp only [MRd.append, ht], ⟨⟨h2, ?_, ?_, ?_⟩, rfl, rfl, rfl, ?_, Nat.le_succ _⟩, rfl, rfl, ?_⟩
    · show a.off + l.length = ((rawLines x.src.data).take (a.ln + 1)).flatten.length
      rw [List.take_succ_eq_append_getElem hlt, ← h1, h.off]
      simp
    · intro h0; have := h.tries h0; omega
    · intro h; rw [hml] at h; cases h
    · show ls.length ≤ a.todo.length; rw [ht]; simp
    · intro _; show ls.length < _; simp

/-- the result of a part of `parse` that ends with an error -/
def Failing (x : Ctx) {α : Type} (a : MRd) : Res MRd α → Prop
  | .ok _ a' => x.cfg.mode ≠ .throw ∧ Kep x a a' ∧ a'.next.err.valid x.cfg.mode = false
  | .exc _ a' => x.cfg.mode = .throw ∧ Kep x a a'
  | .ub => False
  | .nofuel => False

theorem failLimit_tot {x : Ctx} {a : MRd} (h : MBase x a) : Failing x a (MRd.failLimit x.cfg a) := by
  unfold MRd.failLimit
  by_cases hm : x.cfg.mode = .throw
  · rw [if_pos hm]; exact ⟨hm, Kep.slot h _⟩
  · rw [if_neg hm]; exact ⟨hm, Kep.slot h _, ErrSt.valid_set hm (by decide) _⟩

theorem failOpen_tot {x : Ctx} {a : MRd} {m : Bytes} (hne : m ≠ []) (h : MBase x a) : Failing x a (MRd.failOpen x.cfg m a) := by
  unfold MRd.failOpen
  cases hm : x.cfg.mode with
  | throw => exact ⟨hm, Kep.slot h _⟩
  | bool => exact ⟨by simp [hm], Kep.slot h _, by rw [hm]; rfl⟩
  | string =>
    refine ⟨by simp [hm], Kep.slot h _, ?_⟩
    rw [hm]
    simpa [ErrSt.valid] using hne

theorem Failing.imp {x : Ctx} {α β : Type} {a b : MRd} {m : M MRd α} {f : α → M MRd β} (hk : Kep x a b) (h : Failing x b (m b))
    (hf : ∀ v a', ∃ w, f v a' = .ok w a') : Failing x a ((m >>= f) b) := by
  unfold Failing at h
  cases hm : m b with
  | ok v a' =>
    rw [hm] at h
    obtain ⟨w, hw⟩ := hf v a'
    rw [M.bind_of_ok hm, hw]
    exact ⟨h.1, hk.trans h.2.1, h.2.2⟩
  | exc e a' => rw [hm] at h; rw [M.bind_of_exc hm]; exact ⟨h.1, hk.trans h.2⟩
  | ub => rw [hm] at h; exact h.elim
  | nofuel => rw [hm] at h; exact h.elim

theorem escapeLoop_tot {x : Ctx} (hml : x.cfg.multiline = true) (pre : Bytes) (before : Nat) : ∀ (f limit : Nat) (a : MRd),
    a.todo.length < f → MBase x a →
    (∃ l a', MRd.escapeLoop x pre before f limit a = .ok (some l) a' ∧ Kep x a a' ∧ a'.next.err = a.next.err ∧
      a'.next.serr = a.next.serr) ∨
    (Failing x a (MRd.escapeLoop x pre before f limit a) ∧
      ∀ l a', MRd.escapeLoop x pre before f limit a ≠ .ok (some l) a') := by
  intro f
  induction f with
  | zero => intro limit a h; omega
  | succ f ih =>
    intro limit a hf h
    unfold MRd.escapeLoop
    simp only [M.get_bind]
    have hnone : ∀ (m : M MRd Unit) (b : MRd), Kep x a b → Failing x b (m b) →
        Failing x a ((m >>= fun _ => pure (none : Option Nat)) b) ∧
        ∀ l a', (m >>= fun _ => pure (none : Option Nat)) b ≠ .ok (some l) a' := by
      intro m b hk hb
      refine ⟨hb.imp hk fun v a' => ⟨none, rfl⟩, ?_⟩
      intro l a' heq
      rw [M.bind_apply] at heq
      cases hm : m b <;> rw [hm] at heq <;> simp at heq
    by_cases ho : MRd.oddTail x.cfg (pre ++ a.look.drop before) = true
    · rw [if_pos ho]
      by_cases hl : x.cfg.mlLimit > 0 ∧ limit ≥ x.cfg.mlLimit
      · rw [if_pos hl]
        exact .inr (hnone _ a ⟨h, rfl, rfl, rfl, Nat.le_refl _, Nat.le_refl _⟩ (failLimit_tot h))
      · rw [if_neg hl]
        obtain ⟨b, a1, h1, h2, h3, h4, h5⟩ := append_tot hml h
        rw [M.bind_of_ok h1]
        cases b with
        | true =>
          simp only [if_true]
          rcases ih (limit + 1) a1 (by have := h5 rfl; omega) h2.base with ⟨l, a', e1, e2, e3, e4⟩ | ⟨e1, e2⟩
          · exact .inl ⟨l, a', e1, h2.trans e2, e3.trans h3, e4.trans h4⟩
          · refine .inr ⟨?_, e2⟩
            unfold Failing at e1 ⊢
            split at e1
            · exact ⟨e1.1, h2.trans e1.2.1, e1.2.2⟩
            · exact ⟨e1.1, h2.trans e1.2⟩
            · exact e1
            · exact e1
        | false =>
          simp only [Bool.false_eq_true, if_false]
          exact .inr (hnone _ a1 h2 (failOpen_tot (by decide) h2.base))
    · rw [if_neg ho]
      exact .inl ⟨limit, a, rfl, ⟨h, rfl, rfl, rfl, Nat.le_refl _, Nat.le_refl _⟩, rfl, rfl⟩

theorem MBase.todo_lt {x : Ctx} {a : MRd} (h : MBase x a) : a.todo.length < Reader.bound x := by
  have h1 := rawLines_length x.src.data
  rw [h.todo, List.length_drop]
  have hb : Reader.bound x = x.src.data.length + 2 := by
    unfold Reader.bound
    cases hx : x.src <;> rfl
  omega

theorem escapeLoopIf_tot {x : Ctx} (hml : x.cfg.multiline = true) (pre : Bytes) (before limit : Nat) {a : MRd} (h : MBase x a) :
    (∃ l a', MRd.escapeLoopIf x pre before limit a = .ok (some l) a' ∧ Kep x a a' ∧ a'.next.err = a.next.err ∧
      a'.next.serr = a.next.serr) ∨
    (Failing x a (MRd.escapeLoopIf x pre before limit a) ∧
      ∀ l a', MRd.escapeLoopIf x pre before limit a ≠ .ok (some l) a') := by
  unfold MRd.escapeLoopIf
  split
  · exact escapeLoop_tot hml pre before _ _ _ h.todo_lt h
  · exact .inl ⟨limit, a, rfl, ⟨h, rfl, rfl, rfl, Nat.le_refl _, Nat.le_refl _⟩, rfl, rfl⟩

/-- the result of `parse` -/
def PTot (x : Ctx) (a : MRd) : Res MRd Unit → Prop
  | .ok _ a' => Kep x a a' ∧ (x.cfg.mode ≠ .throw ∧ a'.next.err.valid x.cfg.mode = false ∨
      a'.next.err.valid x.cfg.mode = true ∧ (a'.next.serr.valid x.cfg.mode = false ∨ a'.next.cols ≠ none))
  | .exc _ a' => x.cfg.mode = .throw ∧ Kep x a a'
  | .ub => False
  | .nofuel => False

theorem PTot.trans {x : Ctx} {a b : MRd} {r : Res MRd Unit} (hk : Kep x a b) (h : PTot x b r) : PTot x a r := by
  unfold PTot at h ⊢
  split at h
  · exact ⟨hk.trans h.1, h.2⟩
  · exact ⟨h.1, hk.trans h.2⟩
  · exact h
  · exact h

theorem Failing.ptot {x : Ctx} {a : MRd} {r : Res MRd Unit} (h : Failing x a r) : PTot x a r := by
  unfold Failing at h
  unfold PTot
  split at h
  · exact ⟨h.2.1, .inl ⟨h.1, h.2.2⟩⟩
  · exact h
  · exact h
  · exact h

/-- what a (re)split leaves -/
theorem settle_tot {x : Ctx} {n : Nat} {fs : List Bytes} {e : End} {a : MRd} (h : MBase x a) :
    (∃ m a', MRd.settle x.cfg n fs e a = .exc m a' ∧ x.cfg.mode = .throw ∧ Kep x a a') ∨
    (∃ a', MRd.settle x.cfg n fs e a = .ok () a' ∧ Kep x a a' ∧ a'.look = a.look ∧ a'.next.err = a.next.err ∧
      (e.isOpenQuote = false → a'.next.serr.valid x.cfg.mode = false ∨ a'.next.cols ≠ none)) := by
  unfold MRd.settle
  cases he : endError x.cfg n e with
  | some m =>
    by_cases hm : x.cfg.mode = .throw
    · exact .inl ⟨m, { a with next := { a.next with cols := none } }, by simp [hm], hm, Kep.slot h _⟩
    · refine .inr ⟨{ a with next := { a.next with serr := (a.next.serr.clear x.cfg.mode).set x.cfg.mode m, cols := none } },
        by simp [hm], Kep.slot h _, rfl, rfl, fun _ => .inl (ErrSt.valid_set hm (endError_ne_nil he) _)⟩
  | none =>
    refine .inr ⟨_, rfl, Kep.slot h _, rfl, rfl, fun ho => .inr ?_⟩
    simp [ho]

theorem decode_noquote {c : Cfg} (hq : c.quote = none) (d : Bytes) : ∀ (n : Nat) (acc r : Bytes), r.length < n →
    (decode c d .normal acc r).2.isOpenQuote = false := by
  intro n
  induction n with
  | zero => intro acc r h; omega
  | succ n ih =>
    intro acc r hn
    rw [decode]
    split
    · rename_i f rest hf
      split
      · rfl
      · rename_i hd
        have hl := field_next_length c d hd _ _ _ _ _ hf
        have hs : start c rest = (.normal, rest) := by cases rest <;> simp [start, hq]
        simp only [hs]
        exact ih _ _ (by omega)
    · rename_i f e hf
      rcases field_last_end _ _ _ _ _ _ _ hf with h | h <;> subst h <;> rfl
    · rename_i e hf
      cases field_stop_quoted _ _ _ _ _ _ hf

theorem decodeRow_noquote {c : Cfg} (hq : c.quote = none) (d r : Bytes) : (decodeRow c d r).2.isOpenQuote = false := by
  have hs : ∀ t, start c t = (.normal, t) := by intro t; cases t <;> simp [start, hq]
  rw [decodeRow, decodeFields, hs]
  exact decode_noquote hq d _ _ _ (Nat.lt_succ_self _)

theorem quoteLoop_tot {x : Ctx} (hml : x.cfg.multiline = true) : ∀ (f limit : Nat) (fs : List Bytes) (acc : Bytes) (n o : Nat)
    (tail : Bytes) (a : MRd), a.todo.length < f → MBase x a → a.next.err.valid x.cfg.mode = true →
    PTot x a (MRd.quoteLoop x f limit fs acc n o tail a) := by
  intro f
  induction f with
  | zero => intro limit fs acc n o tail a h; omega
  | succ f ih =>
    intro limit fs acc n o tail a hf h hv
    unfold MRd.quoteLoop
    simp only [M.get_bind]
    by_cases hl : x.cfg.mlLimit > 0 ∧ limit ≥ x.cfg.mlLimit
    · rw [if_pos hl]
      exact (failLimit_tot h).ptot
    · rw [if_neg hl]
      obtain ⟨b, a1, h1, h2, h3, h4, h5⟩ := append_tot hml h
      rw [M.bind_of_ok h1]
      cases b with
      | false =>
        simp only [Bool.false_eq_true, if_false]
        exact PTot.trans h2 (failOpen_tot (by decide) h2.base).ptot
      | true =>
        simp only [if_true]
        refine PTot.trans h2 ?_
        rcases escapeLoopIf_tot hml (acc ++ tail) a.look.length (limit + 1) h2.base with ⟨l, a2, e1, e2, e3, e4⟩ | ⟨e1, e2⟩
        · rw [M.bind_of_ok e1]
          simp only [M.get_bind]
          refine PTot.trans e2 ?_
          rw [MRd.resplitText_settle]
          generalize tail ++ a2.look.drop a.look.length = t
          generalize cutNul t = more
          have hv2 : a2.next.err.valid x.cfg.mode = true := by rw [e3, h3]; exact hv
          rcases settle_tot (n := n - o + acc.length + more.length) (fs := fs ++ (decode x.cfg x.delim .quoted acc more).1)
              (e := (decode x.cfg x.delim .quoted acc more).2) e2.base with ⟨m, a3, g1, g2, g3⟩ | ⟨a3, g1, g2, g3, g4, g5⟩
          · rw [M.bind_of_exc g1]; exact ⟨g2, g3⟩
          · rw [M.bind_of_ok g1]
            have hv3 : a3.next.err.valid x.cfg.mode = true := by rw [g4]; exact hv2
            refine PTot.trans g2 ?_
            have hdone : (decode x.cfg x.delim .quoted acc more).2.isOpenQuote = false → PTot x a3 (.ok () a3) := fun ho =>
              ⟨⟨g2.base, rfl, rfl, rfl, Nat.le_refl _, Nat.le_refl _⟩, .inr ⟨hv3, g5 ho⟩⟩
            cases hd : (decode x.cfg x.delim .quoted acc more).2 with
            | openQuote acc' =>
              refine ih _ _ _ _ _ _ _ ?_ g2.base hv3
              have := h5 rfl; have := e2.fewer; have := g2.fewer; omega
            | mismatch _ _ => exact hdone (by rw [hd]; rfl)
            | eol => exact hdone (by rw [hd]; rfl)
            | eolEscape => exact hdone (by rw [hd]; rfl)
            | openEscape => exact hdone (by rw [hd]; rfl)
        · unfold Failing at e1
          cases hr : MRd.escapeLoopIf x (acc ++ tail) a.look.length (limit + 1) a1 with
          | ok w a2 =>
            rw [hr] at e1
            cases w with
            | some l => exact absurd hr (e2 l a2)
            | none => rw [M.bind_of_ok hr]; exact ⟨e1.2.1, .inl ⟨e1.1, e1.2.2⟩⟩
          | exc e a2 => rw [hr] at e1; rw [M.bind_of_exc hr]; exact e1
          | ub => rw [hr] at e1; exact e1.elim
          | nofuel => rw [hr] at e1; exact e1.elim

theorem parse_tot {x : Ctx} (hml : x.cfg.multiline = true) {a : MRd} (h : MBase x a) (hv : a.next.err.valid x.cfg.mode = true) :
    PTot x a (MRd.parse x a) := by
  unfold MRd.parse
  rcases escapeLoopIf_tot hml [] 0 0 h with ⟨l, a2, e1, e2, e3, e4⟩ | ⟨e1, e2⟩
  · rw [M.bind_of_ok e1]
    simp only [M.get_bind]
    refine PTot.trans e2 ?_
    generalize cutNul a2.look = text
    have hv2 : a2.next.err.valid x.cfg.mode = true := by rw [e3]; exact hv
    by_cases ht : text = []
    · subst ht
      rw [M.bind_of_ok (show MRd.splitText x.cfg x.delim [] a2 = .ok () _ from rfl)]
      simp only [ne_eq, not_true_eq_false, and_false, if_false]
      exact ⟨Kep.slot e2.base _, .inr ⟨hv2, .inr (by simp)⟩⟩
    · rw [MRd.splitText_settle ht]
      rcases settle_tot (n := text.length) (fs := (decodeRow x.cfg x.delim text).1) (e := (decodeRow x.cfg x.delim text).2) e2.base with
        ⟨m, a3, g1, g2, g3⟩ | ⟨a3, g1, g2, g3, g4, g5⟩
      · rw [M.bind_of_exc g1]; exact ⟨g2, g3⟩
      · rw [M.bind_of_ok g1]
        have hv3 : a3.next.err.valid x.cfg.mode = true := by rw [g4]; exact hv2
        refine PTot.trans g2 ?_
        have hdone : (decodeRow x.cfg x.delim text).2.isOpenQuote = false → PTot x a3 (.ok () a3) := fun ho =>
          ⟨⟨g2.base, rfl, rfl, rfl, Nat.le_refl _, Nat.le_refl _⟩, .inr ⟨hv3, g5 ho⟩⟩
        by_cases hq : x.cfg.quote = none
        · rw [if_neg (by simp [hq])]
          exact hdone (decodeRow_noquote hq _ _)
        · rw [if_pos ⟨hml, hq, ht⟩]
          cases hd : (decodeRow x.cfg x.delim text).2 with
          | openQuote acc' => exact quoteLoop_tot hml _ _ _ _ _ _ _ _ g2.base.todo_lt g2.base hv3
          | mismatch _ _ => exact hdone (by rw [hd]; rfl)
          | eol => exact hdone (by rw [hd]; rfl)
          | eolEscape => exact hdone (by rw [hd]; rfl)
          | openEscape => exact hdone (by rw [hd]; rfl)
  · unfold Failing at e1
    cases hr : MRd.escapeLoopIf x [] 0 0 a with
    | ok w a2 =>
      rw [hr] at e1
      cases w with
      | some l => exact absurd hr (e2 l a2)
      | none => rw [M.bind_of_ok hr]; exact ⟨e1.2.1, .inl ⟨e1.1, e1.2.2⟩⟩
    | exc e a2 => rw [hr] at e1; rw [M.bind_of_exc hr]; exact e1
    | ub => rw [hr] at e1; exact e1.elim
    | nofuel => rw [hr] at e1; exact e1.elim

/-- with multiline: how a row is dealt with -/
theorem parse_res {x : Ctx} (hml : x.cfg.multiline = true) {a : MRd} (h : MBase x a) (hv : a.next.err.valid x.cfg.mode = true) :
    ∃ res a1, PRes x a res a1 ∧ Kep x a a1 := by
  have hp := parse_tot hml h hv
  unfold PRes PResR
  unfold PTot at hp
  cases hr : MRd.parse x a with
  | ok u a1 =>
    rw [hr] at hp
    obtain ⟨hk, ⟨hth, he⟩ | ⟨he, hs⟩⟩ := hp
    · exact ⟨.error a1.next.err.msg, a1, by simp only [hth, if_false]; exact ⟨trivial, .inl ⟨he, fun _ => trivial⟩⟩, hk⟩
    · by_cases hs' : a1.next.serr.valid x.cfg.mode = false
      · have hth : x.cfg.mode ≠ .throw := by intro h; rw [h] at hs'; simp [ErrSt.valid] at hs'
        exact ⟨.error a1.next.serr.msg, a1, by simp only [hth, if_false]; exact ⟨trivial, .inr ⟨he, hs', fun _ => trivial⟩⟩, hk⟩
      · cases hc : a1.next.cols with
        | none => exact absurd hc (hs.resolve_left hs')
        | some cols => exact ⟨.ok cols, a1, ⟨rfl, he, by simpa using hs', hc⟩, hk⟩
  | exc e a1 =>
    rw [hr] at hp
    exact ⟨.error e, a1, by simp only [hp.1, if_true], hp.2⟩
  | ub => rw [hr] at hp; exact hp.elim
  | nofuel => rw [hr] at hp; exact hp.elim

/-- `get_next` with multiline, not at the end of the input -/
theorem getNext_rowM {x : Ctx} (hml : x.cfg.multiline = true) (rs : List Req) {t : Mach} (h : MInv x t) (he : t.eof = false) :
    ∃ n res t', MOut x n (Mach.getNext x rs t) t' res ∧ MInv x t' := by
  obtain ⟨res, a1, h1, h2⟩ := parse_res hml h.base (h.clean he)
  obtain ⟨e, c', n', _, h3⟩ := getNext_of_parse (rs := rs) he h1
  exact ⟨_, _, _, h3, MInv.readFrom (h2.base.slots _ _) _⟩

theorem getNext_eofM {x : Ctx} (rs : List Req) {t : Mach} (h : MInv x t) (he : t.eof = true) :
    Post (MInv x) (Mach.getNext x rs t) ∧ ∀ o t', Mach.getNext x rs t = .ok o t' → o = some (Conv.defaults rs) := by
  have := getNext_eof (x := x) (rs := rs) he
  split at this
  · rw [this]
    exact ⟨MInv.readFrom (h.base.slots _ _) _, fun o t' h => by cases h; rfl⟩
  · have hi : MInv x { t with err := t.err.clear x.cfg.mode, rd := { t.rd with cur := t.rd.next, next := t.rd.cur } } :=
      h.slots _ _ _ (by simp [he])
    refine ⟨Post.of_reports this hi (hi.hdr ⟨rfl, rfl, rfl⟩), fun o t' ho => ?_⟩
    unfold Mach.Reports at this
    split at this
    · rw [ho] at this; cases this
    · rw [ho] at this; cases this; rfl

/-- `get_next` with multiline: the values it returns are known if the parser is valid after it -/
theorem getNext_postM {x : Ctx} (hml : x.cfg.multiline = true) (rs : List Req) {t : Mach} (h : MInv x t) :
    Post (MInv x) (Mach.getNext x rs t) ∧
    ∀ o t', Mach.getNext x rs t = .ok o t' → t'.valid x.cfg = true → o ≠ none := by
  cases he : t.eof with
  | true =>
    refine ⟨(getNext_eofM rs h he).1, fun o t' ho _ => ?_⟩
    rw [(getNext_eofM rs h he).2 o t' ho]; simp
  | false =>
    obtain ⟨n, res, t', h1, h2⟩ := getNext_rowM hml rs h he
    refine ⟨h1.post h2, fun o t'' ho hv => ?_⟩
    have := (h1.valid ho).2
    cases res with
    | ok vs => simp only at this; rw [this.1]; simp
    | error m => simp only at this; rw [this.1] at hv; cases hv

theorem tryNext_postM {x : Ctx} (hml : x.cfg.multiline = true) (a : Parser.Alt) {t : Mach} (h : MInv x t) :
    Post (MInv x) (Mach.tryNext x a t) := by
  obtain ⟨h1, h2⟩ := getNext_postM hml a.reqs h
  unfold Mach.tryNext
  cases hr : Mach.getNext x a.reqs t with
  | ok o t' =>
    rw [hr] at h1
    rw [M.bind_of_ok hr]
    simp only [M.get_bind]
    by_cases hv : t'.valid x.cfg = true
    · rw [if_pos hv]
      cases o with
      | none => exact absurd rfl (h2 _ _ hr hv)
      | some vs =>
        refine Post.bind (P := MInv x) ?_ (fun b t1 ht => ?_) fun _ h => h
        · unfold Mach.tryInvoke
          cases a.fn with
          | none => exact h1
          | some f =>
            cases hf : f vs with
            | none => simp only [hf]; exact h1
            | some b =>
              cases b with
              | true => simp only [hf]; exact h1
              | false =>
                simp only [hf]
                refine Post.bind (P := MInv x) ?_ (fun _ _ h => h) fun _ h => h
                exact Post.of_reports (handleError_reports x _ t') h1 (h1.hdr ⟨rfl, rfl, rfl⟩)
        · simp only [M.get_bind, Mach.optional]
          refine Post.bind (P := MInv x) ?_ (fun _ _ h => h) fun _ h => h
          split <;> exact ht
    · rw [if_neg hv]; exact h1
  | exc e t' => rw [hr] at h1; rw [M.bind_of_exc hr]; exact h1
  | ub => rw [hr] at h1; exact h1.elim
  | nofuel => rw [hr] at h1; exact h1.elim

end Ssp
