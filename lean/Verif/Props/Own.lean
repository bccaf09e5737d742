import Verif.Model.Own
/-!
# Moving parsers (C48)
-/
namespace Ssp.Own

/-! ## Counting -/

/-- what a place in the list of parsers holds -/
def held : Option Handles → List Resource
  | none => []
  | some h => h.owned

theorem owned_eq (w : World) : w.owned = w.objs.flatMap held := by
  unfold World.owned
  congr 1

theorem count_set {r : Resource} {o : Option Handles} : ∀ {l : List (Option Handles)} {i : Nat} {a : Option Handles}, l[i]? = some a →
    ((l.set i o).flatMap held).count r + (held a).count r = (l.flatMap held).count r + (held o).count r := by
  intro l
  induction l with
  | nil => intro i a h; simp at h
  | cons b l ih =>
    intro i a h
    cases i with
    | zero => simp at h; subst h; simp [List.count_append]; omega
    | succ i =>
      simp at h
      have := ih h
      simp [List.count_append]; omega

/-- the resources acquired are all different, and each is held once, or was released once, or is lost -/
structure Inv (w : World) : Prop where
  fresh : ∀ r ∈ w.made, r.id < w.made.length
  made : w.made.Nodup
  once : ∀ r, w.owned.count r + w.released.count r ≤ w.made.count r

theorem count_get_set (h : Handles) (b : Which) (n : Nat) (r : Resource) :
    (h.set (some n) b).owned.count r + (((h.get b).map Resource.block).toList).count r =
      h.owned.count r + (if Resource.block n = r then 1 else 0) := by
  have e : ∀ r, (((some n).map Resource.block).toList).count r = if Resource.block n = r then 1 else 0 := by
    intro r
    simp only [Option.map_some, Option.toList_some, List.count_singleton, beq_iff_eq]
  cases b <;> simp only [Handles.owned, Handles.set, Handles.get, List.count_append, e] <;> omega

theorem inv_new {made : List Resource} {f : Nat → Resource} (hf : ∀ n, (f n).id = n) (h : ∀ r ∈ made, r.id < made.length)
    (hn : made.Nodup) : (∀ r ∈ made ++ [f made.length], r.id < (made ++ [f made.length]).length) ∧ (made ++ [f made.length]).Nodup := by
  refine ⟨?_, ?_⟩
  · intro r hr
    rcases List.mem_append.mp hr with hr | hr
    · have := h r hr; simp; omega
    · simp at hr; subst hr; rw [hf]; simp
  · rw [List.nodup_append]
    refine ⟨hn, by simp, ?_⟩
    intro a ha b hb e
    simp at hb
    subst hb
    have := h a ha
    rw [e, hf] at this
    omega

/-- how the counts change: what is held plus what was released grows with what is acquired, except in a move assignment -/
theorem step_count {w w' : World} {a : Act} (hs : w.step a = some w') (r : Resource) :
    w'.owned.count r + w'.released.count r + (match a with
      | .moveAssign i j => if i = j then 0 else (match w.objs[i]? with
        | some o => (held o).count r
        | none => 0)
      | _ => 0) + w.made.count r = w.owned.count r + w.released.count r + w'.made.count r := by
  rw [owned_eq, owned_eq]
  cases a with
  | openFile ok =>
    unfold World.step at hs
    cases ok with
    | true =>
      simp only [if_true, Option.some.injEq] at hs
      subst hs
      simp [List.count_append, held, Handles.owned, List.count_singleton]
      omega
    | false =>
      simp only [Bool.false_eq_true, if_false, Option.some.injEq] at hs
      subst hs
      simp [held, Handles.owned]
  | ofBuffer =>
    unfold World.step at hs
    simp only [Option.some.injEq] at hs
    subst hs
    simp [held, Handles.owned]
  | realloc i b =>
    unfold World.step at hs
    simp only at hs
    cases ho : w.objs[i]? with
    | none => rw [ho] at hs; cases hs
    | some o =>
      rw [ho] at hs
      cases o with
      | none => cases hs
      | some h =>
        simp only [Option.some.injEq] at hs
        subst hs
        have h1 := count_set (r := r) (o := some (h.set (some w.made.length) b)) ho
        have h2 := count_get_set h b w.made.length r
        simp only [held] at h1
        simp only [List.count_append, List.count_singleton, beq_iff_eq]
        omega
  | update i =>
    unfold World.step at hs
    simp only at hs
    cases ho : w.objs[i]? with
    | none => rw [ho] at hs; cases hs
    | some o =>
      rw [ho] at hs
      cases o with
      | none => cases hs
      | some h =>
        simp only [Option.some.injEq] at hs
        subst hs
        have h1 := count_set (r := r) (o := some { h with buffer := h.next, next := h.buffer }) ho
        simp only [held, Handles.owned, List.count_append] at h1 ⊢
        omega
  | moveConstruct i =>
    unfold World.step at hs
    simp only at hs
    cases ho : w.objs[i]? with
    | none => rw [ho] at hs; cases hs
    | some o =>
      rw [ho] at hs
      cases o with
      | none => cases hs
      | some h =>
        simp only [Option.some.injEq] at hs
        subst hs
        have h1 := count_set (r := r) (o := some {}) ho
        simp only [List.flatMap_append, List.flatMap_cons, List.flatMap_nil, List.append_nil, List.count_append]
        have h2 : (held (some ({} : Handles))).count r = 0 := by simp [held, Handles.owned]
        omega
  | moveAssign i j =>
    unfold World.step at hs
    simp only at hs
    cases ho : w.objs[i]? with
    | none => rw [ho] at hs; cases hs
    | some o =>
      cases hp : w.objs[j]? with
      | none => rw [ho, hp] at hs; cases o <;> cases hs
      | some p =>
        rw [ho, hp] at hs
        cases o with
        | none => cases hs
        | some g =>
          cases p with
          | none => cases hs
          | some h =>
            simp only at hs
            by_cases hij : i = j
            · rw [if_pos hij] at hs
              simp only [Option.some.injEq] at hs
              subst hs
              simp only [if_pos hij]; omega
            · rw [if_neg hij] at hs
              simp only [Option.some.injEq] at hs
              subst hs
              simp only [if_neg hij, ho]
              have h1 := count_set (r := r) (o := some h) ho
              have hj : (w.objs.set i (some h))[j]? = some (some h) := by
                rw [List.getElem?_set_ne hij]; exact hp
              have h2 := count_set (r := r) (o := some {}) hj
              have h3 : (held (some ({} : Handles))).count r = 0 := by simp [held, Handles.owned]
              omega
  | destroy i =>
    unfold World.step at hs
    simp only at hs
    cases ho : w.objs[i]? with
    | none => rw [ho] at hs; cases hs
    | some o =>
      rw [ho] at hs
      cases o with
      | none => cases hs
      | some h =>
        simp only [Option.some.injEq] at hs
        subst hs
        have h1 := count_set (r := r) (o := none) ho
        have h2 : (held none).count r = 0 := by simp [held]
        have h3 : (held (some h)).count r = h.owned.count r := rfl
        simp only [List.count_append]
        omega

/-- what an action acquires -/
theorem step_made {w w' : World} {a : Act} (hs : w.step a = some w') :
    w'.made = w.made ∨ ∃ f : Nat → Resource, (∀ n, (f n).id = n) ∧ w'.made = w.made ++ [f w.made.length] := by
  cases a with
  | openFile ok =>
    unfold World.step at hs
    cases ok with
    | true =>
      simp only [if_true, Option.some.injEq] at hs
      subst hs
      exact .inr ⟨.file, fun _ => rfl, rfl⟩
    | false =>
      simp only [Bool.false_eq_true, if_false, Option.some.injEq] at hs
      subst hs
      exact .inl rfl
  | ofBuffer => unfold World.step at hs; cases hs; exact .inl rfl
  | realloc i b =>
    unfold World.step at hs
    simp only at hs
    split at hs
    · cases hs; exact .inr ⟨.block, fun _ => rfl, rfl⟩
    · cases hs
  | update i =>
    unfold World.step at hs
    simp only at hs
    split at hs <;> cases hs
    exact .inl rfl
  | moveConstruct i =>
    unfold World.step at hs
    simp only at hs
    split at hs <;> cases hs
    exact .inl rfl
  | moveAssign i j =>
    unfold World.step at hs
    simp only at hs
    split at hs
    · split at hs <;> cases hs <;> exact .inl rfl
    · cases hs
  | destroy i =>
    unfold World.step at hs
    simp only at hs
    split at hs <;> cases hs
    exact .inl rfl

theorem Inv.step {w w' : World} {a : Act} (h : Inv w) (hs : w.step a = some w') : Inv w' := by
  have h1 : (∀ r ∈ w'.made, r.id < w'.made.length) ∧ w'.made.Nodup := by
    rcases step_made hs with e | ⟨f, hf, e⟩
    · rw [e]; exact ⟨h.fresh, h.made⟩
    · rw [e]; exact inv_new hf h.fresh h.made
  refine ⟨h1.1, h1.2, fun r => ?_⟩
  have := step_count hs r
  have := h.once r
  omega

theorem Inv.run : ∀ {as : List Act} {w w' : World}, Inv w → w.run as = some w' → Inv w' := by
  intro as
  induction as with
  | nil => intro w w' h hr; cases hr; exact h
  | cons a as ih =>
    intro w w' h hr
    unfold World.run at hr
    cases hs : w.step a with
    | none => rw [hs] at hr; cases hr
    | some w1 => rw [hs] at hr; exact ih (h.step hs) hr

theorem inv_init : Inv {} := ⟨by simp, by simp, by simp [World.owned]⟩

theorem nodup_of_count {l : List Resource} (h : ∀ r, l.count r ≤ 1) : l.Nodup := List.nodup_iff_count.mpr h

/-- **C48**, nothing is released twice: whatever a program does with parsers (constructions, calls that allocate, move
constructions, move assignments, destructions, in any order), no line buffer and no file is released twice, none is
released that was not acquired, none that a parser still holds was released, and no two parsers (or two members of one)
hold the same one. -/
theorem C48_released_once {as : List Act} {w : World} (h : World.run {} as = some w) :
    w.released.Nodup ∧ w.owned.Nodup ∧ (∀ r ∈ w.released, r ∈ w.made ∧ r ∉ w.owned) ∧ (∀ r ∈ w.owned, r ∈ w.made) := by
  have hi := inv_init.run h
  have hm : ∀ r, w.made.count r ≤ 1 := fun r => List.nodup_iff_count.mp hi.made r
  refine ⟨nodup_of_count fun r => ?_, nodup_of_count fun r => ?_, fun r hr => ⟨?_, fun ho => ?_⟩, fun r hr => ?_⟩
  · have := hi.once r; have := hm r; omega
  · have := hi.once r; have := hm r; omega
  · have := hi.once r; have := List.count_pos_iff.mpr hr; exact List.count_pos_iff.mp (by omega)
  · have := hi.once r; have := hm r; have := List.count_pos_iff.mpr hr; have := List.count_pos_iff.mpr ho; omega
  · have := hi.once r; have := List.count_pos_iff.mpr hr; exact List.count_pos_iff.mp (by omega)

/-- In the state `w` the action is no move assignment over a parser that holds something (except over itself). -/
def Careful (w : World) : Act → Prop
  | .moveAssign i j => i = j ∨ w.objs[i]? = some (some {})
  | _ => True

/-- All actions of the program are careful. -/
def CarefulAll : World → List Act → Prop
  | _, [] => True
  | w, a :: as => Careful w a ∧ ∀ w', w.step a = some w' → CarefulAll w' as

theorem kept_step {w w' : World} {a : Act} (hc : Careful w a) (hs : w.step a = some w')
    (h : ∀ r, w.owned.count r + w.released.count r = w.made.count r) (r : Resource) :
    w'.owned.count r + w'.released.count r = w'.made.count r := by
  have h1 := step_count hs r
  have h2 := h r
  cases a with
  | moveAssign i j =>
    simp only at h1
    rcases hc with hc | hc
    · rw [if_pos hc] at h1; omega
    · rw [hc] at h1
      have h3 : (held (some ({} : Handles))).count r = 0 := by simp [held, Handles.owned]
      simp only [h3] at h1
      split at h1 <;> omega
  | _ => simp only at h1; omega

theorem kept_run : ∀ {as : List Act} {w w' : World}, CarefulAll w as → w.run as = some w' →
    (∀ r, w.owned.count r + w.released.count r = w.made.count r) →
    ∀ r, w'.owned.count r + w'.released.count r = w'.made.count r := by
  intro as
  induction as with
  | nil => intro w w' _ hr h; cases hr; exact h
  | cons a as ih =>
    intro w w' hc hr h
    unfold World.run at hr
    cases hs : w.step a with
    | none => rw [hs] at hr; cases hr
    | some w1 => rw [hs] at hr; exact ih (hc.2 _ hs) hr (kept_step hc.1 hs h)

/-- **C48**, nothing is lost, except by a move assignment over a parser that still holds something: everything acquired is
held by a parser or was released; and so, once all parsers are destroyed, exactly the resources acquired were released,
each once. -/
theorem C48_no_leak_partial {as : List Act} {w : World} (h : World.run {} as = some w) (hc : CarefulAll {} as) :
    (∀ r ∈ w.made, r ∈ w.owned ∨ r ∈ w.released) ∧ ((∀ o ∈ w.objs, o = none) → w.released.Perm w.made) := by
  have hk := kept_run hc h (by simp [World.owned])
  refine ⟨fun r hr => ?_, fun ho => List.perm_iff_count.mpr fun r => ?_⟩
  · have := hk r
    have := List.count_pos_iff.mpr hr
    by_cases h0 : r ∈ w.owned
    · exact .inl h0
    · have := List.count_eq_zero_of_not_mem h0
      exact .inr (List.count_pos_iff.mp (by omega))
  · have h0 : w.owned = [] := by
      rw [owned_eq, List.flatMap_eq_nil_iff]
      intro o h
      rw [ho o h]; rfl
    have := hk r
    rw [h0] at this
    simpa using this

/-- a resource nobody holds and nobody released stays so -/
theorem lost_run {r : Resource} : ∀ {as : List Act} {w w' : World}, w.run as = some w' → Inv w → r ∈ w.made →
    r ∉ w.owned → r ∉ w.released → r ∉ w'.owned ∧ r ∉ w'.released := by
  intro as
  induction as with
  | nil => intro w w' hr _ _ h1 h2; cases hr; exact ⟨h1, h2⟩
  | cons a as ih =>
    intro w w' hr hi hm h1 h2
    unfold World.run at hr
    cases hs : w.step a with
    | none => rw [hs] at hr; cases hr
    | some w1 =>
      rw [hs] at hr
      have hi1 := hi.step hs
      have hm1 : r ∈ w1.made := by
        rcases step_made hs with e | ⟨f, _, e⟩ <;> rw [e] <;> simp [hm]
      have c1 : w1.made.count r = w.made.count r := by
        have a1 := List.nodup_iff_count.mp hi1.made r
        have a2 := List.count_pos_iff.mpr hm
        have a3 := List.count_pos_iff.mpr hm1
        have a4 := List.nodup_iff_count.mp hi.made r
        omega
      have h3 := step_count hs r
      rw [List.count_eq_zero_of_not_mem h1, List.count_eq_zero_of_not_mem h2] at h3
      refine ih hr hi1 hm1 (fun h => ?_) (fun h => ?_)
      · have := List.count_pos_iff.mpr h; omega
      · have := List.count_pos_iff.mpr h; omega

/-- **C48 is false of the code**: a move assignment over another parser that holds something leaks it.  Whatever the
program did before, whatever it does afterwards (also if it destroys all parsers), what the parser held is never released. -/
theorem C48_move_assignment_leaks {as bs : List Act} {w w1 w2 : World} {i j : Nat} {g : Handles} {r : Resource}
    (h : World.run {} as = some w) (hs : w.step (.moveAssign i j) = some w1) (hij : i ≠ j) (hg : w.objs[i]? = some (some g))
    (hr : r ∈ g.owned) (h2 : w1.run bs = some w2) : r ∉ w2.released := by
  have hi := inv_init.run h
  have hi1 := hi.step hs
  have hc := step_count hs r
  simp only [if_neg hij, hg] at hc
  have h1 : (held (some g)).count r > 0 := List.count_pos_iff.mpr hr
  have h3 := hi.once r
  have h4 := List.nodup_iff_count.mp hi.made r
  have hm : w.made.count r = 1 := by
    have : w.owned.count r > 0 := by
      rw [owned_eq]
      refine List.count_pos_iff.mpr (List.mem_flatMap.mpr ⟨some g, ?_, hr⟩)
      exact List.mem_of_getElem? hg
    omega
  have hm1 : w1.made = w.made := by
    unfold World.step at hs
    simp only at hs
    split at hs
    · split at hs <;> cases hs <;> rfl
    · cases hs
  rw [hm1] at hc
  refine (lost_run h2 hi1 (by rw [hm1]; exact List.count_pos_iff.mp (by omega)) (fun h => ?_) (fun h => ?_)).2
  · have := List.count_pos_iff.mpr h; omega
  · have := List.count_pos_iff.mpr h; omega

/-! ## Cases -/

/-- two parsers, reading, a move construction, a move assignment over the moved-from one, all destroyed -/
def tidy : List Act :=
  [.openFile true, .realloc 0 .next, .update 0, .realloc 0 .next, .realloc 0 .helper, .realloc 0 .helper, .moveConstruct 0,
   .openFile true, .realloc 2 .next, .moveAssign 0 2, .moveAssign 1 1, .destroy 0, .destroy 1, .destroy 2]

/-- the hypotheses of `C48_no_leak_partial` hold of it -/
example : (World.run {} tidy).map (fun w => (w.objs, w.made.length, w.released.length)) = some ([none, none, none], 7, 7) ∧
    CarefulAll {} tidy := by
  refine ⟨by decide, ?_⟩
  simp [tidy, CarefulAll, Careful, World.step, Handles.set, Handles.get]

/-- two parsers of files, one moved onto the other, both destroyed: the file and the line buffer of the first are never
released -/
example : (World.run {} [.openFile true, .realloc 0 .next, .openFile true, .realloc 1 .next, .moveAssign 0 1, .destroy 0, .destroy 1]) =
    some { objs := [none, none], made := [.file 0, .block 1, .file 2, .block 3], released := [.block 3, .file 2] } := by
  decide

end Ssp.Own
