import Verif.Proofs.Lockstep
/-!
# Two parsers in lockstep
-/
namespace Ssp
open Spec

variable {x y : Ctx} {P : Prop}

/-- two parsers, each with its machine, in lockstep -/
def Together (x y : Ctx) (P : Prop) (s s' : Parser) : Prop :=
  ∃ t t', PRel x s t ∧ MInv x t ∧ PRel y s' t' ∧ MInv y t' ∧ LRel x y P t t'

/-- the observations, with the positions -/
structure AlikeObsP (x y : Ctx) (P : Prop) (o o' : Obs) : Prop extends AlikeObs x y o o' where
  position : P → (x.src = y.src ∨ o.line < (lines x.src.data).length ∨
    (x.cfg.multiline = false ∧ o.line ≤ (lines x.src.data).length)) → o.position = o'.position

theorem observe_together (hc : Alike x y) {s s' : Parser} (h : Together x y P s s') {r r' : Ret} (hr : AlikeRet x y r r') :
    AlikeObsP x y P (Parser.observe x r s) (Parser.observe y r' s') := by
  obtain ⟨t, t', h1, h2, h3, h4, h5⟩ := h
  have o1 := observe_sim h1 h2 r
  have o2 := observe_sim h3 h4 r'
  refine { ret := hr, valid := ?_, msg := ?_, eof := ?_, line := ?_, position := ?_ }
  · rw [o1.valid, o2.valid]; exact h5.valid hc
  · rw [o1.msg, o2.msg]; exact h5.msg
  · rw [o1.eof, o2.eof]; exact h5.eof
  · rw [o1.line, o2.line]; exact h5.line
  · intro hp hl
    have he : t.rd = t'.rd := h5.rd.exact hp
    show s.rd.charsRead = s'.rd.charsRead
    have hline : (Parser.observe x r s).line = t.line := o1.line
    rcases hl with hl | hl | ⟨hm, hl⟩
    · rw [h1.base.chars, h3.base.chars, he, hl]
    · rw [hline] at hl
      have := h2.tries_of_line hl
      rw [h1.base.pos (.inl (by omega)), h3.base.pos (.inl (by rw [← he]; omega)), he]
    · rw [hline] at hl
      have := h2.tries_of_line' hm hl
      rw [h1.base.pos (.inl (by omega)), h3.base.pos (.inl (by rw [← he]; omega)), he]

theorem step_together (hc : Alike x y) {T T' : Nat → Bool → Op → Prop} (hx : x.LiveFor T) (hy : y.LiveFor T')
    (hT : ∀ n e op, T n e op → T' n e op) {s s' : Parser}
    (h : Together x y P s s') (op : Op) (hop : T s.line s.eof op) :
    ∃ o o' s1 s1', Parser.step x op s = some (o, s1) ∧ Parser.step y op s' = some (o', s1') ∧ Together x y P s1 s1' ∧
      AlikeObsP x y P o o' := by
  obtain ⟨t, t', h1, h2, h3, h4, h5⟩ := h
  have hsim := exec_sim hx.good op h1
  rw [h1.line, h1.eof] at hop
  have hpost := hx.post op hop h2
  have hop' := hT _ _ _ hop
  rw [h5.line, h5.eof] at hop'
  have hsim' := exec_sim hy.good op h3
  have hpost' := hy.post op hop' h4
  have hlr := mexec_lr hc op h5
  unfold Parser.step
  cases hm : op.mexec x t with
  | ok r t1 =>
    rw [hm] at hsim hpost hlr
    obtain ⟨r', s1, e1, rfl, e3⟩ := hsim
    rw [e1]
    cases hm' : op.mexec y t' with
    | ok r1 t1' =>
      rw [hm'] at hsim' hpost' hlr
      obtain ⟨rr, s1', f1, rfl, f3⟩ := hsim'
      rw [f1]
      have ht : Together x y P s1 s1' := ⟨_, _, e3, hpost, f3, hpost', hlr.2⟩
      exact ⟨_, _, _, _, rfl, rfl, ht, observe_together hc ht (.inl hlr.1)⟩
    | exc e t1' => rw [hm'] at hlr; exact hlr.elim
    | ub => rw [hm'] at hpost'; exact hpost'.elim
    | nofuel => rw [hm'] at hpost'; exact hpost'.elim
  | exc e t1 =>
    rw [hm] at hsim hpost hlr
    obtain ⟨s1, e1, e3⟩ := hsim
    rw [e1]
    cases hm' : op.mexec y t' with
    | ok r1 t1' => rw [hm'] at hlr; exact hlr.elim
    | exc e' t1' =>
      rw [hm'] at hsim' hpost' hlr
      obtain ⟨s1', f1, f3⟩ := hsim'
      rw [f1]
      have ht : Together x y P s1 s1' := ⟨_, _, e3, hpost, f3, hpost', hlr.2⟩
      exact ⟨_, _, _, _, rfl, rfl, ht, observe_together hc ht (.inr ⟨_, _, rfl, rfl, hlr.1⟩)⟩
    | ub => rw [hm'] at hpost'; exact hpost'.elim
    | nofuel => rw [hm'] at hpost'; exact hpost'.elim
  | ub => rw [hm] at hpost; exact hpost.elim
  | nofuel => rw [hm] at hpost; exact hpost.elim

theorem run_together (hc : Alike x y) {T T' : Nat → Bool → Op → Prop} (hx : x.LiveFor T) (hy : y.LiveFor T')
    (hTT : ∀ n e op, T n e op → T' n e op) : ∀ (ops : List Op) {s s' : Parser}, Parser.TRun x T ops s → Together x y P s s' →
    ∃ os os' s1 s1', Parser.run x ops s = some (os, s1) ∧ Parser.run y ops s' = some (os', s1') ∧ Together x y P s1 s1' ∧
      All2 (AlikeObsP x y P) os os' := by
  intro ops
  induction ops with
  | nil => intro s s' _ h; exact ⟨[], [], s, s', rfl, rfl, h, .nil⟩
  | cons op ops ih =>
    intro s s' hT h
    obtain ⟨o, o', s1, s1', h1, h2, h3, h4⟩ := step_together hc hx hy hTT h op hT.1
    obtain ⟨os, os', s2, s2', h6, h7, h8, h9⟩ := ih (hT.2 _ _ h1) h3
    exact ⟨o :: os, o' :: os', s2, s2', by simp [Parser.run, h1, h6], by simp [Parser.run, h2, h7], h8, .cons h4 h9⟩

/-! ## The same rows of several lines -/

theorem TodoRel.same {l l' : List Bytes} (h : TodoRel true l l') : l.length = l'.length ∧
    (∀ i (h1 : i < l.length) (h2 : i < l'.length), chop l[i] = chop l'[i]) ∧
    (∀ i (h1 : i + 1 < l.length) (h2 : i + 1 < l'.length), l[i] = l'[i]) := by
  induction h with
  | nil => simp
  | last h1 _ =>
    refine ⟨rfl, ?_, ?_⟩
    · intro i h2 _
      have : i = 0 := by simpa using h2
      subst this; exact h1
    · intro i h2 _; simp at h2
  | cons h1 h2 _ ih =>
    obtain ⟨e1, e2, e3⟩ := ih
    refine ⟨by simp [e1], ?_, ?_⟩
    · intro i g1 g2
      cases i with
      | zero => exact h1
      | succ i => exact e2 i (by simpa using g1) (by simpa using g2)
    · intro i g1 g2
      cases i with
      | zero => exact h2 rfl
      | succ i => exact e3 i (by simpa using g1) (by simpa using g2)

theorem chop_eolOf (l : Bytes) : chop l ++ eolOf l = l := by
  have h : eolOf l = l.drop (l.length - (eolOf l).length) := by
    unfold eolOf
    rcases List.eq_nil_or_concat l with rfl | ⟨i, b, rfl⟩
    · simp
    · simp only [List.concat_eq_append, List.getLast?_append, List.getLast?_singleton, Option.some_or, List.dropLast_concat, Option.some.injEq]
      by_cases hb : b = LF
      · subst hb
        rcases List.eq_nil_or_concat i with rfl | ⟨j, c, rfl⟩
        · simp
        · simp only [List.concat_eq_append, List.getLast?_append, List.getLast?_singleton, Option.some_or, Option.some.injEq]
          by_cases hc : c = CR
          · subst hc; simp
          · simp [hc]
      · simp [hb]
  conv => rhs; rw [← List.take_append_drop (l.length - (eolOf l).length) l, ← h]
  rfl

theorem nul_chop {l : Bytes} (h : NUL ∈ l) : NUL ∈ chop l := by
  rw [← chop_eolOf l, List.mem_append] at h
  refine h.resolve_right fun h => ?_
  unfold eolOf at h
  by_cases h1 : l.getLast? = some LF
  · by_cases h2 : l.dropLast.getLast? = some CR
    · simp only [h1, h2, if_true] at h; revert h; decide
    · simp only [h1, h2, if_true, if_false] at h; revert h; decide
  · simp only [h1, if_false] at h; cases h

theorem TodoRel.no_nul {ml : Bool} {d d' : Bytes} (h : TodoRel ml (rawLines d) (rawLines d')) (hd : NUL ∉ d) : NUL ∉ d' := by
  rw [← rawLines_flatten d] at hd
  rw [← rawLines_flatten d']
  intro h'
  apply hd
  generalize rawLines d = a at h
  generalize rawLines d' = b at h h'
  clear hd
  induction h with
  | nil => exact h'
  | @cons l l' ls ls' h1 h2 _ ih =>
    rw [List.flatten_cons, List.mem_append] at h' ⊢
    refine h'.imp (fun h => ?_) ih
    have := nul_chop h
    rw [← h1] at this
    exact List.mem_of_mem_take this
  | @last l l' h1 _ =>
    have := nul_chop (show NUL ∈ l' by simpa using h')
    rw [← h1] at this
    simpa using List.mem_of_mem_take this

theorem joined_todo (ht : TodoRel true (rawLines x.src.data) (rawLines y.src.data)) (n : Nat) : ∀ k,
    n + k < (rawLines x.src.data).length → x.joined n k = y.joined n k := by
  obtain ⟨h1, h2, h3⟩ := ht.same
  intro k
  induction k with
  | zero =>
    intro h
    rw [joined_zero (x := x) (by omega), joined_zero (by omega)]
    exact h2 _ _ _
  | succ k ih =>
    intro h
    rw [joined_succ (by omega), joined_succ (by omega), ih (by omega), h3 (n + k) (by omega) (by omega), h2 (n + k + 1) (by omega) (by omega)]

/-- what `or_else` may follow in one input it may follow in the other -/
theorem Ctx.Resumable.same (hc : Alike x y) (hy : y.Ok)
    (ht : TodoRel x.cfg.multiline (rawLines x.src.data) (rawLines y.src.data)) {n : Nat} (h : x.Resumable n) : y.Resumable n := by
  obtain ⟨hm, k, hk⟩ := h
  rw [hm.ml] at ht
  have hml : y.cfg.multiline = true := by rw [hc.cfg]; exact hm.ml
  have hq : ∀ n k, n + k < (lines y.src.data).length → y.cfg.InQuote y.delim (cutNul (y.joined n k)) → NUL ∉ y.joined n k := by
    intro n k hi
    have hi' : n + k < (rawLines x.src.data).length := by
      have := ht.same.1
      simp only [lines, List.length_map] at hi; omega
    rw [← joined_todo ht n k hi', hc.cfg, hc.delim]
    exact hm.quotes n k (by simpa [lines] using hi')
  refine ⟨⟨hy, hml, by rw [hc.cfg, hc.delim]; exact hm.clean, by rw [hc.cfg]; exact hm.lf, hq⟩, k, ?_⟩
  have hin : n + k < (rawLines x.src.data).length := by simpa [lines] using hk.inside
  have hg : ∀ t, y.GoesOn t ↔ x.GoesOn t := fun t => by unfold Ctx.GoesOn; rw [hc.cfg, hc.delim]
  refine ⟨?_, ?_, ?_⟩
  · have := ht.same.1; simp only [lines, List.length_map]; omega
  · rw [← joined_todo ht n k hin, hg]; exact hk.stops
  · intro i hi
    rw [← joined_todo ht n i (by omega), hg, hc.cfg]; exact hk.before i hi

theorem Op.Tame.same (hc : Alike x y) (hy : y.Ok)
    (ht : TodoRel x.cfg.multiline (rawLines x.src.data) (rawLines y.src.data)) (n : Nat) (e : Bool) (op : Op) (h : op.Tame x n e) :
    op.Tame y n e := by
  intro hm a as ho
  rcases h (by rw [← hc.cfg]; exact hm) a as ho with h | h | h
  · exact .inl h
  · exact .inr (.inl h)
  · exact .inr (.inr (h.same hc hy ht))

/-! ## Construction -/

theorem Parser.Created.sim_exists {x : Ctx} (hx : x.Good) (he : x.src.Exists) {s : Parser} (h : Parser.Created x s) :
    ∃ t, Mach.firstLine x (Mach.init x) = .ok () t ∧ PRel x s t := by
  have hfl : Parser.firstLine x {} = .ok () s → ∃ t, Mach.firstLine x (Mach.init x) = .ok () t ∧ PRel x s t := by
    intro h
    have := firstLine_sim hx
    have he := firstLine_eq x
    generalize hX : (if x.cfg.ignoreHeader then ({ Mach.first x with rd := ((Mach.first x).rd.readR x).2 } : Mach)
      else { Mach.first x with rawHeader := (Mach.first x).rd.look }) = t at he
    rw [he, h] at this
    obtain ⟨a, s', e1, _, e2⟩ := this
    cases e1
    exact ⟨t, he, e2⟩
  cases h with
  | file hs h =>
    unfold Parser.newFile at h
    rw [hs] at h
    exact hfl h
  | missing hs h => rw [hs] at he; exact absurd rfl he
  | @buffer p n hs h =>
    unfold Parser.newBuffer at h
    rw [hs] at h
    cases p with
    | none => rw [hs] at he; exact absurd rfl he
    | some d => exact hfl h

theorem readGo_nil_look {ie : Bool} : ∀ (ls : List Bytes) (a : MRd), a.look = [] → (MRd.readGo ie ls a).1 = false →
    (MRd.readGo ie ls a).2.look = [] := by
  intro ls
  induction ls with
  | nil => intro a h _; simp [MRd.readGo, h, MRd.zap]
  | cons l ls ih =>
    intro a h hf
    unfold MRd.readGo at hf ⊢
    split
    · rename_i hb
      rw [if_pos hb] at hf
      exact ih _ (by simp [h, overlay_nil]) hf
    · rename_i hb
      rw [if_neg hb] at hf
      cases hf

theorem rawLines_ne (d : Bytes) : ∀ l ∈ rawLines d, l ≠ [] := by
  induction d with
  | nil => simp [rawLines]
  | cons b d ih =>
    intro l hl
    unfold rawLines at hl
    split at hl
    · rcases List.mem_cons.mp hl with rfl | hl
      · simp
      · exact ih l hl
    · cases hr : rawLines d with
      | nil => rw [hr] at hl; simp at hl; simp [hl]
      | cons k ks =>
        rw [hr] at hl ih
        rcases List.mem_cons.mp hl with rfl | hl
        · simp
        · exact ih l (by simp [hl])

theorem created_together (hc : Alike x y) (hx : x.Good) (hy : y.Good) (ex : x.src.Exists) (ey : y.src.Exists)
    (ht : TodoRel x.cfg.multiline (rawLines x.src.data) (rawLines y.src.data)) (hp : P → x.src.data = y.src.data)
    {s s' : Parser} (h : Parser.Created x s) (h' : Parser.Created y s') : Together x y P s s' := by
  obtain ⟨t, h1, h2⟩ := h.sim_exists hx ex
  obtain ⟨t', h1', h2'⟩ := h'.sim_exists hy ey
  have hi : MInv x t := MNew.inv (.inl h1)
  have hi' : MInv y t' := MNew.inv (.inl h1')
  refine ⟨t, t', h2, hi, h2', hi', ?_⟩
  rw [firstLine_eq] at h1 h1'
  cases h1
  cases h1'
  have h0 : RdRel1 x.cfg.multiline P (Mach.init x).rd (Mach.init y).rd :=
    { cur := rfl, next := rfl, sel := rfl, ncols := rfl, ln := rfl, todo := ht, look := rfl, mlook := fun _ => rfl
      crlf := fun _ _ => rfl
      exact := fun h => by unfold Mach.init; rw [hp h]
      ne := rawLines_ne _, ne' := rawLines_ne _ }
  obtain ⟨r1, r2, r3⟩ := h0.read hc
  have hf : LRel x y P (Mach.first x) (Mach.first y) :=
    ⟨rfl, .rfl, rfl, rfl, by unfold Mach.first; rw [r1], r2⟩
  have hlook : (Mach.first x).rd.look = (Mach.first y).rd.look := by
    cases hb : ((Mach.init x).rd.readR x).1 with
    | true => exact r3 hb
    | false =>
      have e1 : ((Mach.init x).rd.readR x).2.look = [] := readGo_nil_look _ _ rfl hb
      have e2 : ((Mach.init y).rd.readR y).2.look = [] := readGo_nil_look _ _ rfl (by rw [r1] at hb; exact hb)
      exact e1.trans e2.symm
  rw [hc.cfg]
  split
  · exact ⟨hf.flag, hf.msg, hf.header, hf.rawHeader, hf.eof, (hf.rd.read hc).2.1⟩
  · exact ⟨hf.flag, hf.msg, hf.header, hlook, hf.eof, hf.rd⟩

end Ssp
