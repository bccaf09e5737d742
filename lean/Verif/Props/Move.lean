import Verif.Model.Move
import Verif.Props.ParserMultiline
/-!
# C61: moving parsers
-/
namespace Ssp

/-- C61, the move constructor: the new parser is in all respects what the old one was. -/
theorem C61_move_construct (o : Obj) : o.moveConstruct = o := rfl

/-- C61, the move assignment between parsers of one type -/
theorem C61_move_assign {d o : Obj} (h1 : d.x.cfg = o.x.cfg) (h2 : d.x.wrapped = o.x.wrapped) : d.moveAssign o = o := by
  obtain ⟨⟨c, e, r, l, f, w⟩, s⟩ := o
  cases h1; cases h2; rfl

/-! ## Which parser is which -/

/-- The calls of a program with the input they belong to: `names[i]` is the input that parser number `i` reads, `none` if
it was moved from or its life ended.  A move only gives the input to another parser.  `none`: the program uses a parser that
was moved from otherwise than by assigning to it or destroying it, or one that does not exist. -/
def tracks : List MAct → List (Option (Option Nat)) → Option (List (Nat × Op))
  | [], _ => some []
  | .call i op :: as, ns =>
    match ns[i]? with
    | some (some (some k)) => (tracks as ns).map ((k, op) :: ·)
    | _ => none
  | .moveConstruct i :: as, ns =>
    match ns[i]? with
    | some (some (some k)) => tracks as (ns.set i (some none) ++ [some (some k)])
    | _ => none
  | .moveAssign i j :: as, ns =>
    match ns[i]?, ns[j]? with
    | some (some _), some (some (some k)) =>
      if i = j then none else tracks as ((ns.set i (some (some k))).set j (some none))
    | _, _ => none
  | .destroy i :: as, ns =>
    match ns[i]? with
    | some (some _) => tracks as (ns.set i none)
    | _ => none

/-- the calls on the input `k` -/
def opsOf (k : Nat) (tr : List (Nat × Op)) : List Op := (tr.filter fun p => p.1 == k).map (·.2)

/-- of the observations, those of the calls on the input `k` -/
def obsOf (k : Nat) : List (Nat × Op) → List Obs → List Obs
  | (j, _) :: tr, b :: bs => if j == k then b :: obsOf k tr bs else obsOf k tr bs
  | _, _ => []

/-- The parsers of a program and the inputs they read (`R k`: the parser of input `k` if there were no moves). -/
structure Held (c : Cfg) (w : Bool) (os : List (Option Obj)) (ns : List (Option (Option Nat))) (R : Nat → Obj) : Prop where
  len : os.length = ns.length
  types : ∀ (i : Nat) (o : Obj), os[i]? = some (some o) → o.x.cfg = c ∧ o.x.wrapped = w
  alive : ∀ (i : Nat) (n : Option Nat), ns[i]? = some (some n) → ∃ o : Obj, os[i]? = some (some o)
  at_ : ∀ (i k : Nat), ns[i]? = some (some (some k)) → os[i]? = some (some (R k))
  inj : ∀ (i j k : Nat), ns[i]? = some (some (some k)) → ns[j]? = some (some (some k)) → i = j

namespace Held
variable {c : Cfg} {w : Bool} {os : List (Option Obj)} {ns : List (Option (Option Nat))} {R : Nat → Obj}

theorem lt_of {α : Type} {l : List α} {i : Nat} {a : α} (h : l[i]? = some a) : i < l.length :=
  (List.getElem?_eq_some_iff.mp h).1

theorem call (h : Held c w os ns R) {i k : Nat} (hi : ns[i]? = some (some (some k))) (s' : Parser) :
    Held c w (os.set i (some { R k with s := s' })) ns (fun j => if j = k then { R k with s := s' } else R j) := by
  have hk := h.at_ i k hi
  have hl := lt_of hk
  refine ⟨by simp [h.len], fun j o hj => ?_, fun j n hj => ?_, fun j m hj => ?_, h.inj⟩
  · rw [List.getElem?_set] at hj
    split at hj
    · subst i; simp at hj; cases hj; exact h.types j (R k) hk
    · exact h.types j o hj
  · rw [List.getElem?_set]
    split
    · exact ⟨_, rfl⟩
    · exact h.alive j n hj
  · rw [List.getElem?_set]
    split
    · rename_i e; subst e
      have : m = k := by rw [hi] at hj; cases hj; rfl
      simp [this]
    · rename_i e
      have : m ≠ k := fun e2 => e (h.inj i j k hi (e2 ▸ hj))
      simp only [this, if_false]
      exact h.at_ j m hj

theorem construct (h : Held c w os ns R) {i k : Nat} (hi : ns[i]? = some (some (some k))) :
    Held c w (os.set i (some ((R k).left false)) ++ [some (R k).moveConstruct]) (ns.set i (some none) ++ [some (some k)]) R := by
  have hk := h.at_ i k hi
  have hl := lt_of hk
  have hl' := lt_of hi
  have ht := h.types i _ hk
  have hs : ∀ {α : Type} (l : List α) (a b : α) (j : Nat) {v : α}, (l.set i a ++ [b])[j]? = some v →
      (j < l.length ∧ i = j ∧ v = a) ∨ (j < l.length ∧ i ≠ j ∧ l[j]? = some v) ∨ (j = l.length ∧ v = b) := by
    intro α l a b j v hv
    rw [List.getElem?_append] at hv
    split at hv
    · rename_i hj
      rw [List.length_set] at hj
      rw [List.getElem?_set] at hv
      split at hv
      · rename_i e; subst e; simp only [hj, if_true] at hv; cases hv; exact .inl ⟨hj, rfl, rfl⟩
      · rename_i e; exact .inr (.inl ⟨hj, e, hv⟩)
    · rename_i hj
      rw [List.length_set] at hj hv
      have hj1 := lt_of hv
      simp at hj1
      have : j - l.length = 0 := by omega
      rw [this] at hv; simp at hv
      exact .inr (.inr ⟨by omega, hv.symm⟩)
  have hg1 : ∀ {α : Type} (l : List α) (a b : α), (l.set i a ++ [b])[l.length]? = some b := by
    intro α l a b
    rw [List.getElem?_append_right (by simp)]; simp
  have hg2 : ∀ {α : Type} (l : List α) (a b : α) (j : Nat), j < l.length → i ≠ j → (l.set i a ++ [b])[j]? = l[j]? := by
    intro α l a b j hj e
    rw [List.getElem?_append_left (by simpa using hj), List.getElem?_set]; simp [e]
  have hg3 : ∀ {α : Type} (l : List α) (a b : α), i < l.length → (l.set i a ++ [b])[i]? = some a := by
    intro α l a b hj
    rw [List.getElem?_append_left (by simpa using hj), List.getElem?_set]; simp [hj]
  refine ⟨by simp [h.len], fun j o hj => ?_, fun j n hj => ?_, fun j m hj => ?_, fun j j' m hj hj' => ?_⟩
  · rcases hs _ _ _ j hj with ⟨_, _, e⟩ | ⟨_, _, e⟩ | ⟨_, e⟩
    · cases e; exact ht
    · exact h.types j o e
    · cases e; exact ht
  · rcases hs _ _ _ j hj with ⟨_, e, _⟩ | ⟨e1, e, e2⟩ | ⟨e, _⟩
    · subst e; exact ⟨_, hg3 _ _ _ hl⟩
    · obtain ⟨o, ho⟩ := h.alive j n e2
      exact ⟨o, by rw [hg2 _ _ _ _ (h.len ▸ e1) e]; exact ho⟩
    · subst e; rw [← h.len]; exact ⟨_, hg1 _ _ _⟩
  · rcases hs _ _ _ j hj with ⟨_, _, e⟩ | ⟨e1, e, e2⟩ | ⟨e, e2⟩
    · cases e
    · rw [hg2 _ _ _ _ (h.len ▸ e1) e]; exact h.at_ j m e2
    · subst e; cases e2; rw [← h.len, C61_move_construct]; exact hg1 _ _ _
  · rcases hs _ _ _ j hj with ⟨_, _, e⟩ | ⟨e1, e, e2⟩ | ⟨e, e2⟩
    · cases e
    · rcases hs _ _ _ j' hj' with ⟨_, _, e'⟩ | ⟨e1', e', e2'⟩ | ⟨e', e2'⟩
      · cases e'
      · exact h.inj j j' m e2 e2'
      · cases e2'; exact absurd (h.inj _ _ _ hi e2) e
    · cases e2
      rcases hs _ _ _ j' hj' with ⟨_, _, e'⟩ | ⟨e1', e', e2'⟩ | ⟨e', e2'⟩
      · cases e'
      · exact absurd (h.inj _ _ _ hi e2') e'
      · omega

theorem assign (h : Held c w os ns R) {i j k : Nat} {d : Obj} {n : Option Nat} (hi : ns[i]? = some (some n))
    (hd : os[i]? = some (some d)) (hj : ns[j]? = some (some (some k))) :
    Held c w ((os.set i (some (d.moveAssign (R k)))).set j (some ((R k).left true)))
      ((ns.set i (some (some k))).set j (some none)) R := by
  have hk := h.at_ j k hj
  have hlj := lt_of hk
  have hli := lt_of hd
  have hlj' := lt_of hj
  have hli' := lt_of hi
  have ht := h.types j _ hk
  have htd := h.types i _ hd
  have hmv : d.moveAssign (R k) = R k := C61_move_assign (htd.1.trans ht.1.symm) (htd.2.trans ht.2.symm)
  have hs : ∀ {α : Type} (l : List α) (a b : α) (m : Nat), i < l.length → j < l.length →
      ((l.set i a).set j b)[m]? = if j = m then some b else if i = m then some a else l[m]? := by
    intro α l a b m h1 h2
    rw [List.getElem?_set, List.getElem?_set, List.length_set]
    split
    · simp
    · split
      · simp
      · rfl
  refine ⟨by simp [h.len], fun m o hm => ?_, fun m v hm => ?_, fun m v hm => ?_, fun m m' v hm hm' => ?_⟩
  · rw [hs _ _ _ _ hli hlj] at hm
    split at hm
    · cases hm; exact ht
    · split at hm
      · cases hm; rw [hmv]; exact ht
      · exact h.types m o hm
  · rw [hs _ _ _ _ hli' hlj'] at hm
    rw [hs _ _ _ _ hli hlj]
    split
    · exact ⟨_, rfl⟩
    · split
      · exact ⟨_, rfl⟩
      · rename_i e1 e2
        simp only [e1, e2, if_false] at hm
        exact h.alive m v hm
  · rw [hs _ _ _ _ hli' hlj'] at hm
    rw [hs _ _ _ _ hli hlj]
    split
    · rename_i e; simp [e] at hm
    · rename_i e
      simp only [e, if_false] at hm
      split
      · rename_i e2; simp only [e2, if_true] at hm; cases hm; rw [hmv]
      · rename_i e2; simp only [e2, if_false] at hm; exact h.at_ m v hm
  · rw [hs _ _ _ _ hli' hlj'] at hm hm'
    by_cases a1 : j = m
    · simp [a1] at hm
    · by_cases a2 : j = m'
      · simp [a2] at hm'
      · simp only [a1, a2, if_false] at hm hm'
        by_cases b1 : i = m
        · by_cases b2 : i = m'
          · omega
          · simp only [b1, if_true] at hm
            simp only [b2, if_false] at hm'
            cases hm
            exact absurd (h.inj _ _ _ hj hm') a2
        · by_cases b2 : i = m'
          · simp only [b2, if_true] at hm'
            simp only [b1, if_false] at hm
            cases hm'
            exact absurd (h.inj _ _ _ hj hm) a1
          · simp only [b1, b2, if_false] at hm hm'
            exact h.inj m m' v hm hm'

theorem destroy (h : Held c w os ns R) {i : Nat} {n : Option Nat} (hi : ns[i]? = some (some n)) :
    Held c w (os.set i none) (ns.set i none) R := by
  have hl' := lt_of hi
  have hl : i < os.length := h.len ▸ hl'
  refine ⟨by simp [h.len], fun m o hm => ?_, fun m v hm => ?_, fun m v hm => ?_, fun m m' v hm hm' => ?_⟩
  · rw [List.getElem?_set] at hm
    split at hm
    · simp at hm
    · exact h.types m o hm
  · rw [List.getElem?_set] at hm ⊢
    split at hm
    · simp at hm
    · rename_i e; simp only [e, if_false]; exact h.alive m v hm
  · rw [List.getElem?_set] at hm ⊢
    split at hm
    · simp at hm
    · rename_i e; simp only [e, if_false]; exact h.at_ m v hm
  · rw [List.getElem?_set] at hm hm'
    split at hm
    · simp at hm
    · split at hm'
      · simp at hm'
      · exact h.inj m m' v hm hm'

theorem runs : ∀ {as : List MAct} {os : List (Option Obj)} {ns : List (Option (Option Nat))} {R : Nat → Obj} {tr : List (Nat × Op)},
    Held c w os ns R → tracks as ns = some tr →
    (∀ k, ∃ bs s', Parser.run (R k).x (opsOf k tr) (R k).s = some (bs, s')) →
    ∃ bs os', runMoves as os = some (bs, os') ∧ bs.length = tr.length ∧
      ∀ k bk s', Parser.run (R k).x (opsOf k tr) (R k).s = some (bk, s') → obsOf k tr bs = bk := by
  intro as
  induction as with
  | nil =>
    intro os ns R tr h ht hr
    cases ht
    refine ⟨[], os, rfl, rfl, fun k bk s' hk => ?_⟩
    have : Parser.run (R k).x [] (R k).s = some (bk, s') := hk
    cases this; rfl
  | cons a as ih =>
    intro os ns R tr h ht hr
    cases a with
    | call i op =>
      unfold tracks at ht
      split at ht
      · rename_i k hi
        cases ht' : tracks as ns with
        | none => rw [ht'] at ht; cases ht
        | some tr' =>
          rw [ht'] at ht
          cases ht
          obtain ⟨bk, sk, hk⟩ := hr k
          have e1 : opsOf k ((k, op) :: tr') = op :: opsOf k tr' := by simp [opsOf]
          have e2 : ∀ m, m ≠ k → opsOf m ((k, op) :: tr') = opsOf m tr' := by
            intro m hm
            have : ¬ k = m := fun e => hm e.symm
            simp [opsOf, this]
          rw [e1] at hk
          unfold Parser.run at hk
          cases hst : Parser.step (R k).x op (R k).s with
          | none => rw [hst] at hk; cases hk
          | some p =>
            obtain ⟨b, s1⟩ := p
            rw [hst] at hk
            dsimp only at hk
            cases hrr : Parser.run (R k).x (opsOf k tr') s1 with
            | none => rw [hrr] at hk; cases hk
            | some q =>
              obtain ⟨bs1, s2⟩ := q
              rw [hrr] at hk
              cases hk
              obtain ⟨bs, os', g1, g2, g3⟩ := ih (h.call hi s1) ht' (by
                intro m
                by_cases hm : m = k
                · subst hm; simp only [if_true]; exact ⟨_, _, hrr⟩
                · simp only [hm, if_false]
                  obtain ⟨x1, x2, x3⟩ := hr m
                  rw [e2 m hm] at x3
                  exact ⟨x1, x2, x3⟩)
              refine ⟨b :: bs, os', ?_, by simp [g2], fun m bm sm hm => ?_⟩
              · unfold runMoves
                rw [h.at_ i k hi]
                simp only [hst, g1]
              · by_cases e : m = k
                · subst e
                  rw [e1] at hm
                  unfold Parser.run at hm
                  rw [hst] at hm
                  dsimp only at hm
                  rw [hrr] at hm
                  cases hm
                  have := g3 m bs1 _ (by simp only [if_true]; exact hrr)
                  simp only [obsOf, beq_self_eq_true, if_true, this]
                · rw [e2 m e] at hm
                  have := g3 m bm sm (by simp only [e, if_false]; exact hm)
                  have e' : (k == m) = false := by simp; exact fun x => e x.symm
                  simp only [obsOf, e', Bool.false_eq_true, if_false, this]
      · cases ht
    | moveConstruct i =>
      unfold tracks at ht
      split at ht
      · rename_i k hi
        obtain ⟨bs, os', g1, g2, g3⟩ := ih (h.construct hi) ht hr
        refine ⟨bs, os', ?_, g2, g3⟩
        unfold runMoves
        rw [h.at_ i k hi]
        exact g1
      · cases ht
    | moveAssign i j =>
      unfold tracks at ht
      split at ht
      · rename_i n k hi hj
        split at ht
        · cases ht
        · rename_i hij
          obtain ⟨d, hd⟩ := h.alive i _ hi
          obtain ⟨bs, os', g1, g2, g3⟩ := ih (h.assign hi hd hj) ht hr
          refine ⟨bs, os', ?_, g2, g3⟩
          unfold runMoves
          rw [hd, h.at_ j k hj]
          simp only [if_neg hij]
          exact g1
      · cases ht
    | destroy i =>
      unfold tracks at ht
      split at ht
      · rename_i n hi
        obtain ⟨d, hd⟩ := h.alive i _ hi
        obtain ⟨bs, os', g1, g2, g3⟩ := ih (h.destroy hi) ht hr
        refine ⟨bs, os', ?_, g2, g3⟩
        unfold runMoves
        rw [hd]
        exact g1
      · cases ht

end Held

/-- **C61**.  A program has parsers `ps` of one type, calls them, moves them (constructing new ones, and by assignment) and
destroys them, in any order, and does not use a parser that was moved from (except to assign to it or to destroy it).  Then
the calls on each of the inputs, by whatever parser they are made, are observed just as if the parser that was first made
for this input had been used all the time, without any move and without any other parser around: same values, errors,
exceptions, `eof()`, `line()` and `position()`. -/
theorem C61_moves_change_nothing {ps : List Obj} {c : Cfg} {w : Bool} (hty : ∀ o ∈ ps, o.x.cfg = c ∧ o.x.wrapped = w)
    {as : List MAct} {tr : List (Nat × Op)} (ht : tracks as ((List.range ps.length).map fun k => some (some k)) = some tr)
    (hr : ∀ k p, ps[k]? = some p → ∃ bs s', Parser.run p.x (opsOf k tr) p.s = some (bs, s')) :
    ∃ bs os', runMoves as (ps.map some) = some (bs, os') ∧ bs.length = tr.length ∧
      ∀ k p bk s', ps[k]? = some p → Parser.run p.x (opsOf k tr) p.s = some (bk, s') → obsOf k tr bs = bk := by
  cases ps with
  | nil =>
    cases as with
    | nil => cases ht; exact ⟨[], [], rfl, rfl, fun k p bk s' h => by simp at h⟩
    | cons a as => cases a <;> simp [tracks] at ht
  | cons p0 ps0 =>
    generalize hps : p0 :: ps0 = ps at *
    have h : Held c w (ps.map some) ((List.range ps.length).map fun k => some (some k)) (fun k => ps.getD k p0) := by
      refine ⟨by simp, fun i o hi => ?_, fun i n hi => ?_, fun i k hi => ?_, fun i j k hi hj => ?_⟩
      · simp only [List.getElem?_map, Option.map_eq_some_iff, Option.some.injEq] at hi
        obtain ⟨a, ha, rfl⟩ := hi
        exact hty a (List.mem_of_getElem? ha)
      · have hl := Held.lt_of hi
        simp only [List.length_map, List.length_range] at hl
        exact ⟨ps[i], by simp [hl]⟩
      · have hl := Held.lt_of hi
        simp only [List.length_map, List.length_range] at hl
        simp [hl] at hi
        subst hi
        simp [hl]
      · have hl := Held.lt_of hi
        have hl2 := Held.lt_of hj
        simp only [List.length_map, List.length_range] at hl hl2
        simp [hl] at hi
        simp [hl2] at hj
        omega
    have hkey : ∀ k, ¬ k < ps.length → ∀ (as : List MAct) (ns : List (Option (Option Nat))) (tr : List (Nat × Op)),
        (∀ (i m : Nat), ns[i]? = some (some (some m)) → m < ps.length) → tracks as ns = some tr → opsOf k tr = [] := by
      intro k hk as
      induction as with
      | nil => intro ns tr _ h; cases h; rfl
      | cons a as ih =>
        intro ns tr hn h
        cases a with
        | call i op =>
          unfold tracks at h
          split at h
          · rename_i m hi
            cases ht' : tracks as ns with
            | none => rw [ht'] at h; cases h
            | some tr' =>
              rw [ht'] at h; cases h
              have : ¬ m = k := fun e => hk (e ▸ hn i m hi)
              have h2 := ih ns tr' hn ht'
              simpa [opsOf, this] using h2
          · cases h
        | moveConstruct i =>
          unfold tracks at h
          split at h
          · rename_i m hi
            refine ih _ tr (fun j v hj => ?_) h
            rw [List.getElem?_append] at hj
            split at hj
            · rw [List.getElem?_set] at hj
              split at hj
              · split at hj <;> cases hj
              · exact hn j v hj
            · have := List.mem_of_getElem? hj
              simp at this
              subst this
              exact hn i _ hi
          · cases h
        | moveAssign i j =>
          unfold tracks at h
          split at h
          · rename_i n m hi hj
            split at h
            · cases h
            · refine ih _ tr (fun l v hl => ?_) h
              rw [List.getElem?_set] at hl
              split at hl
              · split at hl <;> cases hl
              · rw [List.getElem?_set] at hl
                split at hl
                · split at hl
                  · cases hl; exact hn j _ hj
                  · cases hl
                · exact hn l v hl
          · cases h
        | destroy i =>
          unfold tracks at h
          split at h
          · refine ih _ tr (fun l v hl => ?_) h
            rw [List.getElem?_set] at hl
            split at hl
            · split at hl <;> cases hl
            · exact hn l v hl
          · cases h
    obtain ⟨bs, os', g1, g2, g3⟩ := h.runs ht (by
      intro k
      by_cases hk : k < ps.length
      · have e : ps[k]? = some (ps.getD k p0) := by simp [hk]
        exact hr k _ e
      · rw [hkey k hk as _ tr (fun i m hi => by
          have hl := Held.lt_of hi
          simp only [List.length_map, List.length_range] at hl
          simp [hl] at hi
          omega) ht]
        exact ⟨[], _, rfl⟩)
    refine ⟨bs, os', g1, g2, fun k p bk s' hk hrun => g3 k bk s' ?_⟩
    have hl := Held.lt_of hk
    have e : ps.getD k p0 = p := by
      have : ps[k]? = some (ps.getD k p0) := by simp [hl]
      rw [hk] at this; cases this; rfl
    show Parser.run (ps.getD k p0).x _ (ps.getD k p0).s = _
    rw [e]; exact hrun

/-- C61 with C54: for parsers at any point of their lives, without multiline, no such program has undefined behaviour; so
the sequences of the theorem above always exist. -/
theorem C61_moves_are_defined {ps : List Obj} {c : Cfg} {w : Bool} (hty : ∀ o ∈ ps, o.x.cfg = c ∧ o.x.wrapped = w)
    (hok : ∀ o ∈ ps, o.x.Ok ∧ Parser.Reach o.x o.s) (hm : c.multiline = false)
    {as : List MAct} {tr : List (Nat × Op)} (ht : tracks as ((List.range ps.length).map fun k => some (some k)) = some tr) :
    ∃ bs os', runMoves as (ps.map some) = some (bs, os') ∧ bs.length = tr.length ∧
      ∀ k p, ps[k]? = some p → ∃ s', Parser.run p.x (opsOf k tr) p.s = some (obsOf k tr bs, s') := by
  have hr : ∀ k p, ps[k]? = some p → ∃ bs s', Parser.run p.x (opsOf k tr) p.s = some (bs, s') := by
    intro k p hk
    have hp := List.mem_of_getElem? hk
    obtain ⟨h1, h2⟩ := hok p hp
    obtain ⟨os, s', h3, _⟩ := C54_calls_are_defined h1 (by rw [(hty p hp).1]; exact hm) h2 (opsOf k tr)
    exact ⟨os, s', h3⟩
  obtain ⟨bs, os', g1, g2, g3⟩ := C61_moves_change_nothing hty ht hr
  refine ⟨bs, os', g1, g2, fun k p hk => ?_⟩
  obtain ⟨bk, s', h⟩ := hr k p hk
  exact ⟨s', by rw [g3 k p bk s' hk h]; exact h⟩

/-- the same with multiline, for calls of `or_else` behind complete rows only (see C54) -/
theorem C61_moves_are_defined_multiline {ps : List Obj} {c : Cfg} {w : Bool} (hty : ∀ o ∈ ps, o.x.cfg = c ∧ o.x.wrapped = w)
    (hok : ∀ o ∈ ps, o.x.Ok ∧ Parser.ReachT o.x o.s)
    {as : List MAct} {tr : List (Nat × Op)} (ht : tracks as ((List.range ps.length).map fun k => some (some k)) = some tr)
    (hc : ∀ k p, ps[k]? = some p → Parser.Covered p.x (opsOf k tr) p.s) :
    ∃ bs os', runMoves as (ps.map some) = some (bs, os') ∧ bs.length = tr.length ∧
      ∀ k p, ps[k]? = some p → ∃ s', Parser.run p.x (opsOf k tr) p.s = some (obsOf k tr bs, s') := by
  have hr : ∀ k p, ps[k]? = some p → ∃ bs s', Parser.run p.x (opsOf k tr) p.s = some (bs, s') := by
    intro k p hk
    have hp := List.mem_of_getElem? hk
    obtain ⟨h1, h2⟩ := hok p hp
    obtain ⟨os, s', h3, _⟩ := C54_calls_multiline_partial h1 h2 (opsOf k tr) (hc k p hk)
    exact ⟨os, s', h3⟩
  obtain ⟨bs, os', g1, g2, g3⟩ := C61_moves_change_nothing hty ht hr
  refine ⟨bs, os', g1, g2, fun k p hk => ?_⟩
  obtain ⟨bk, s', h⟩ := hr k p hk
  exact ⟨s', by rw [g3 k p bk s' hk h]; exact h⟩

/-! ## Cases -/

namespace Demo

/-- a parser just made -/
def obj (d : String) : Obj := ⟨ctx cs d, start cs d⟩

theorem obj_ok (d : String) : (obj d).x.Ok ∧ Parser.Reach (obj d).x (obj d).s := ⟨ok cs cs_wf d, (created cs_wf rfl d).reach⟩

/-- two of them -/
def two : List Obj := [obj "a,1\nb,2\nc,3\n", obj "x\ny,7\n"]

/-- read from both, move the first to a new parser, assign the second to the empty one, read on, assign back -/
def moving : List MAct :=
  [.call 0 (.getNext [str, num]), .call 1 (.getNext [str, num]), .moveConstruct 0, .call 2 (.getNext [str, num]), .moveAssign 0 1,
    .call 0 (.getNext [str, num]), .destroy 1, .moveAssign 0 2, .call 0 (.getNext [str, num]), .destroy 2]

end Demo

open Demo in
/-- the hypotheses of `C61_moves_are_defined` are met -/
example : (∀ o ∈ two, o.x.cfg = cs ∧ o.x.wrapped = false) ∧ (∀ o ∈ two, o.x.Ok ∧ Parser.Reach o.x o.s) ∧ cs.multiline = false ∧
    (tracks moving ((List.range two.length).map fun k => some (some k))).isSome = true := by
  refine ⟨?_, ?_, rfl, by decide⟩
  · intro o ho
    simp only [two, List.mem_cons, List.not_mem_nil, or_false] at ho
    rcases ho with rfl | rfl <;> exact ⟨rfl, rfl⟩
  · intro o ho
    simp only [two, List.mem_cons, List.not_mem_nil, or_false] at ho
    rcases ho with rfl | rfl
    · exact obj_ok _
    · exact obj_ok _

open Demo in
/-- and this is what is read -/
example : ((runMoves moving (two.map some)).map fun p => p.1.map fun o => (o.ret, o.line)) =
    some [(.row (some [.str (bs "a"), .int 1]), 1), (.row none, 1), (.row (some [.str (bs "b"), .int 2]), 2),
      (.row (some [.str (bs "y"), .int 7]), 2), (.row (some [.str (bs "c"), .int 3]), 3)] := by
  decide +kernel

open Demo in
/-- C61, why a parser that was moved from must not be read: its buffers are null but their sizes are not, so that already
the next line is written through a null pointer. -/
theorem C61_moved_from_is_unusable :
    runMoves [.call 0 (.getNext [str, num]), .moveConstruct 0, .call 0 .ignoreNext] (two.map some) = none ∧
    (runMoves [.call 0 (.getNext [str, num]), .moveConstruct 0] (two.map some)).isSome = true := by
  refine ⟨?_, by decide +kernel⟩
  have h : (runMoves [.call 0 (.getNext [str, num]), .moveConstruct 0, .call 0 .ignoreNext] (two.map some)).isNone = true := by
    decide +kernel
  exact Option.isNone_iff_eq_none.mp h

theorem M.bind_ub {σ α β : Type} {m : M σ α} {f : α → M σ β} {s : σ} (h : m s = .ub) : (m >>= f) s = .ub := by
  rw [M.bind_apply, h]

/-- splitting the line of a reader whose buffer is null -/
theorem parse_null {x : Ctx} {r : Reader} (h : r.next.conv.spl.mem = []) : Reader.parse x r = .ub := by
  have hsplit : Reader.onNext (Conv.split x.cfg x.delim) r = .ub := by
    unfold Reader.onNext
    have : Conv.split x.cfg x.delim r.next.conv = .ub := by
      unfold Conv.split
      rw [M.modify_bind]
      apply M.bind_ub
      unfold Conv.onSpl Spl.rd
      simp [h]
    rw [this]
  have hloop : Reader.escapeLoopIf x 0 r = .ub ∨ Reader.escapeLoopIf x 0 r = .ok (some 0) r := by
    unfold Reader.escapeLoopIf
    by_cases hm : x.cfg.multiline = true ∧ x.cfg.escape ≠ []
    · rw [if_pos hm]
      obtain ⟨k, hk⟩ : ∃ k, Reader.bound x = k + 1 := ⟨_, rfl⟩
      rw [hk]
      unfold Reader.escapeLoop
      rw [M.get_bind]
      cases hn : r.nextLineSize with
      | zero => exact .inr rfl
      | succ n =>
        left
        apply M.bind_ub
        unfold Reader.escapedEol
        apply M.bind_ub
        unfold Reader.countEscapes
        apply M.bind_ub
        unfold Reader.rdNext
        simp [h]
    · rw [if_neg hm]; exact .inr rfl
  unfold Reader.parse
  rcases hloop with h1 | h1
  · exact M.bind_ub h1
  · rw [M.bind_of_ok h1]
    exact M.bind_ub hsplit

/-- C61, in general: a row asked of a parser that was moved from - whatever its state was, however it was moved - is undefined
behaviour, unless it was at the end of its input. -/
theorem C61_get_next_of_moved_from (o : Obj) (assigned : Bool) (rs : List Req) (h : o.s.eof = false) :
    Parser.getNext (o.left assigned).x rs (o.left assigned).s = .ub := by
  unfold Parser.getNext
  apply M.bind_ub
  unfold Parser.parseRowIf
  rw [if_neg (by show ¬ o.s.eof = true; rw [h]; decide)]
  have hp : Parser.onRd (Reader.parse (o.left assigned).x) (o.left assigned).s = .ub := by
    unfold Parser.onRd
    rw [parse_null (r := (o.left assigned).s.rd) rfl]
  unfold Parser.parseRow
  generalize (o.left assigned).x.cfg.mode = md
  cases md with
  | throw => show Parser.tryCatch _ _ _ = _; unfold Parser.tryCatch; rw [hp]
  | _ => exact hp

/-- ... and so is `ignore_next()` once both line buffers were in use. -/
theorem C61_ignore_next_of_moved_from (o : Obj) (assigned : Bool) (h : 0 < o.s.rd.next.size) :
    Parser.ignoreNext (o.left assigned).x (o.left assigned).s = .ub := by
  unfold Parser.ignoreNext Parser.onRd
  have : Reader.readNext (o.left assigned).x (o.left assigned).s.rd = .ub := by
    unfold Reader.readNext
    obtain ⟨r', hclr, hsz, hmem⟩ : ∃ r', Reader.onNext (Conv.clearError (o.left assigned).x.cfg) (o.left assigned).s.rd = .ok () r' ∧
        r'.next.size = o.s.rd.next.size ∧ r'.next.conv.spl.mem = [] := ⟨_, rfl, rfl, rfl⟩
    rw [M.bind_of_ok hclr]
    obtain ⟨k, hk⟩ : ∃ k, Reader.bound (o.left assigned).x = k + 1 := ⟨_, rfl⟩
    rw [hk]
    unfold Reader.readNextLoop
    rw [M.modify_bind, M.get_bind]
    apply M.bind_ub
    rw [if_pos (by show 0 < r'.next.size; rw [hsz]; exact h)]
    unfold Reader.wrNext
    rw [if_neg (by show ¬ 0 < r'.next.conv.spl.mem.length; rw [hmem]; decide)]
  rw [this]

/-! ## Lifetime -/

/-- the action needs parser `i` to be alive -/
def MAct.Uses (i : Nat) : MAct → Prop
  | .call k _ | .moveConstruct k | .destroy k => k = i
  | .moveAssign k j => k = i ∨ j = i

theorem runMoves_dead {i : Nat} : ∀ (as : List MAct) (os : List (Option Obj)), os[i]? = some none → (∃ a ∈ as, a.Uses i) →
    runMoves as os = none
  | [], _, _, ⟨_, h, _⟩ => by cases h
  | a :: as, os, hd, hu => by
    by_cases ha : a.Uses i
    · cases a with
      | call k op => cases ha; unfold runMoves; rw [hd]
      | moveConstruct k => cases ha; unfold runMoves; rw [hd]
      | destroy k => cases ha; unfold runMoves; rw [hd]
      | moveAssign k j =>
        unfold runMoves
        rcases ha with rfl | rfl
        · rw [hd]
        · rw [hd]; cases os[k]? with
          | none => rfl
          | some q => cases q <;> rfl
    · have hr : ∃ b ∈ as, b.Uses i := by
        obtain ⟨b, hb, hb'⟩ := hu
        rcases List.mem_cons.mp hb with rfl | hb
        · exact absurd hb' ha
        · exact ⟨b, hb, hb'⟩
      have hset : ∀ {k : Nat} {q : Option Obj} {ps : List (Option Obj)}, k ≠ i → ps[i]? = some none → (ps.set k q)[i]? = some none := by
        intro k q ps hk h; rw [List.getElem?_set_ne hk]; exact h
      cases a with
      | call k op =>
        unfold runMoves
        cases os[k]? with
        | none => rfl
        | some q =>
          cases q with
          | none => rfl
          | some o =>
            dsimp only
            cases Parser.step o.x op o.s with
            | none => rfl
            | some p => dsimp only; rw [runMoves_dead as _ (hset ha hd) hr]
      | moveConstruct k =>
        unfold runMoves
        cases os[k]? with
        | none => rfl
        | some q =>
          cases q with
          | none => rfl
          | some o =>
            dsimp only
            refine runMoves_dead as _ ?_ hr
            rw [List.getElem?_append_left]
            · exact hset ha hd
            · rw [List.length_set]
              exact (List.getElem?_eq_some_iff.mp hd).1
      | destroy k =>
        unfold runMoves
        cases os[k]? with
        | none => rfl
        | some q =>
          cases q with
          | none => rfl
          | some o => exact runMoves_dead as _ (hset ha hd) hr
      | moveAssign k j =>
        have hk : k ≠ i := fun h => ha (.inl h)
        have hj : j ≠ i := fun h => ha (.inr h)
        unfold runMoves
        cases os[k]? with
        | none => rfl
        | some q =>
          cases q with
          | none => rfl
          | some d =>
            cases os[j]? with
            | none => rfl
            | some q =>
              cases q with
              | none => rfl
              | some o =>
                dsimp only
                split
                · rfl
                · exact runMoves_dead as _ (hset hj (hset hk hd)) hr

/-- C61: a program that does anything with a parser whose life ended - a call, a move from it or to it, the end of its life once
more - is undefined, whatever it did before and in between. -/
theorem C61_destroyed_is_unusable {i : Nat} {rest : List MAct} (hu : ∃ a ∈ rest, a.Uses i) :
    ∀ (pre : List MAct) (os : List (Option Obj)), runMoves (pre ++ .destroy i :: rest) os = none
  | [], os => by
    rw [List.nil_append]
    unfold runMoves
    cases h : os[i]? with
    | none => rfl
    | some q =>
      cases q with
      | none => rfl
      | some o =>
        refine runMoves_dead rest _ ?_ hu
        rw [List.getElem?_set_self (List.getElem?_eq_some_iff.mp h).1]
  | a :: pre, os => by
    rw [List.cons_append]
    cases a with
    | call k op =>
      unfold runMoves
      cases os[k]? with
      | none => rfl
      | some q =>
        cases q with
        | none => rfl
        | some o =>
          dsimp only
          cases Parser.step o.x op o.s with
          | none => rfl
          | some p => dsimp only; rw [C61_destroyed_is_unusable hu pre]
    | moveConstruct k =>
      unfold runMoves
      cases os[k]? with
      | none => rfl
      | some q =>
        cases q with
        | none => rfl
        | some o => exact C61_destroyed_is_unusable hu pre _
    | destroy k =>
      unfold runMoves
      cases os[k]? with
      | none => rfl
      | some q =>
        cases q with
        | none => rfl
        | some o => exact C61_destroyed_is_unusable hu pre _
    | moveAssign k j =>
      unfold runMoves
      cases os[k]? with
      | none => rfl
      | some q =>
        cases q with
        | none => rfl
        | some d =>
          cases os[j]? with
          | none => rfl
          | some q =>
            cases q with
            | none => rfl
            | some o =>
              dsimp only
              split
              · rfl
              · exact C61_destroyed_is_unusable hu pre _

open Demo in
/-- the end of the life alone is defined -/
example : (runMoves [.call 0 (.getNext [str, num]), .destroy 0, .call 1 (.getNext [str, num])] (two.map some)).isSome = true := by decide +kernel

end Ssp
