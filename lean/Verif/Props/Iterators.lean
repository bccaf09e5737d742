import Verif.Model.Iterators
import Verif.Props.ParserMultiline
/-!
# C62: iterators
-/
namespace Ssp
namespace Parser

/-- The calls a program makes on the parser, told from what is seen of its actions: an increment after which the iterator
does not equal `end()` is a call of `get_next<Ts...>()`, and nothing else is a call. -/
def itOps (rs : List Req) : List ItAct → List ItEv → List Op
  | .call op :: as, .called _ :: es => op :: itOps rs as es
  | _ :: as, .got _ :: es => .getNext rs :: itOps rs as es
  | _ :: as, _ :: es => itOps rs as es
  | _, _ => []

/-- what is seen of these calls -/
def itObs : List ItEv → List Obs
  | .got o :: es => o :: itObs es
  | .called o :: es => o :: itObs es
  | _ :: es => itObs es
  | [] => []

section
variable {x : Ctx} {rs : List Req}

theorem incr_idle {it : Iter} {s : Parser} (h : it.active = false ∨ s.eof = true) :
    iterIncr x rs it s = .ok { it with active := false } s := by
  unfold iterIncr
  simp only [M.get_bind]
  have : (!it.active || s.eof) = true := by rcases h with h | h <;> simp [h]
  rw [if_pos this]; rfl

theorem incr_next {it : Iter} {s : Parser} (h1 : it.active = true) (h2 : s.eof = false) :
    iterIncr x rs it s = (getNext x rs >>= fun v => pure { it with value := v }) s := by
  unfold iterIncr
  simp only [M.get_bind]
  have : (!it.active || s.eof) = false := by simp [h1, h2]
  rw [if_neg (by simp [this])]

/-- an increment either is no call and gives the end, or is a call of `get_next` -/
theorem incrObs_cases (it : Iter) (s : Parser) :
    ((it.active = false ∨ s.eof = true) ∧ incrObs x rs it s = some (.ended, some { it with active := false }, s)) ∨
    (it.active = true ∧ s.eof = false ∧
      incrObs x rs it s = (step x (.getNext rs) s).map fun p => (.got p.1, (match getNext x rs s with
        | .ok v _ => some { it with value := v }
        | _ => none), p.2)) := by
  by_cases h : it.active = false ∨ s.eof = true
  · exact .inl ⟨h, by simp [incrObs, incr_idle h]⟩
  · have h1 : it.active = true := by cases hc : it.active with | true => rfl | false => exact absurd (.inl hc) h
    have h2 : s.eof = false := by cases hc : s.eof with | false => rfl | true => exact absurd (.inr hc) h
    refine .inr ⟨h1, h2, ?_⟩
    unfold incrObs step
    rw [incr_next h1 h2]
    simp only [Op.exec]
    cases hg : getNext x rs s with
    | ok v s' =>
      rw [M.bind_of_ok hg, M.bind_of_ok hg]
      simp only [M.pure_apply, M.get_bind, h1, if_true]
      rfl
    | exc e s' => rw [M.bind_of_exc hg, M.bind_of_exc hg]; rfl
    | ub => simp only [M.bind_apply, hg]; rfl
    | nofuel => simp only [M.bind_apply, hg]; rfl

/-- the actions: which calls they are -/
theorem itStep_spec {its its' : List Iter} {s s' : Parser} {a : ItAct} {e : ItEv} (h : itStep x rs its s a = some (e, its', s'))
    (as : List ItAct) (es : List ItEv) :
    ((e = .none ∨ e = .ended) ∧ s' = s) ∨
    (∃ o op, itOps rs (a :: as) (e :: es) = op :: itOps rs as es ∧ itObs (e :: es) = o :: itObs es ∧ step x op s = some (o, s')) := by
  have key : ∀ {it : Iter} {p : ItEv × Option Iter × Parser}, (∀ op, a ≠ .call op) → incrObs x rs it s = some p → p.1 = e → p.2.2 = s' →
      ((e = .none ∨ e = .ended) ∧ s' = s) ∨
      (∃ o op, itOps rs (a :: as) (e :: es) = op :: itOps rs as es ∧ itObs (e :: es) = o :: itObs es ∧ step x op s = some (o, s')) := by
    intro it p hna hp h1 h2
    rcases incrObs_cases (x := x) (rs := rs) it s with ⟨_, hi⟩ | ⟨_, _, hi⟩
    · rw [hi] at hp; cases hp
      exact .inl ⟨.inr h1.symm, h2.symm⟩
    · rw [hi] at hp
      cases hst : step x (.getNext rs) s with
      | none => rw [hst] at hp; cases hp
      | some q =>
        rw [hst] at hp; cases hp
        refine .inr ⟨q.1, .getNext rs, ?_, ?_, ?_⟩
        · subst h1
          cases a <;> first | rfl | exact absurd rfl (hna _)
        · subst h1; rfl
        · rw [hst, ← h2]
  cases a with
  | begin =>
    unfold itStep at h
    dsimp only at h
    cases hi : incrObs x rs { active := true, value := Conv.defaults rs } s with
    | none => rw [hi] at h; cases h
    | some p => rw [hi] at h; cases h; exact key (by intro op; simp) hi rfl rfl
  | «end» => cases h; exact .inl ⟨.inl rfl, rfl⟩
  | incr i =>
    unfold itStep at h
    dsimp only at h
    cases hit : its[i]? with
    | none => rw [hit] at h; cases h; exact .inl ⟨.inl rfl, rfl⟩
    | some it =>
      rw [hit] at h
      dsimp only at h
      cases hi : incrObs x rs it s with
      | none => rw [hi] at h; cases h
      | some p => rw [hi] at h; cases h; exact key (by intro op; simp) hi rfl rfl
  | postIncr i =>
    unfold itStep at h
    dsimp only at h
    cases hit : its[i]? with
    | none => rw [hit] at h; cases h; exact .inl ⟨.inl rfl, rfl⟩
    | some it =>
      rw [hit] at h
      dsimp only at h
      cases hi : incrObs x rs it s with
      | none => rw [hi] at h; cases h
      | some p =>
        rw [hi] at h
        obtain ⟨e0, oi, s0⟩ := p
        cases oi with
        | none => cases h; exact key (by intro op; simp) hi rfl rfl
        | some it' => cases h; exact key (by intro op; simp) hi rfl rfl
  | copy i =>
    unfold itStep at h
    dsimp only at h
    cases hit : its[i]? with
    | none => rw [hit] at h; cases h; exact .inl ⟨.inl rfl, rfl⟩
    | some it => rw [hit] at h; cases h; exact .inl ⟨.inl rfl, rfl⟩
  | call op =>
    unfold itStep at h
    dsimp only at h
    cases hst : step x op s with
    | none => rw [hst] at h; cases h
    | some p =>
      rw [hst] at h
      cases h
      exact .inr ⟨p.1, op, rfl, rfl, hst⟩

/-- **C62**.  Whatever a program does with the iterators of a parser (several of them, copies, prefix and postfix increments,
calls on the parser in between): the values seen through the iterators are what `get_next` returns when it is called instead
of each increment that does not give the end - in the same order, each row once, with the same errors and exceptions; and
the parser ends up in the same state. -/
theorem C62_iterators_are_calls : ∀ {as : List ItAct} {its its' : List Iter} {s s' : Parser} {es : List ItEv},
    itRun x rs as its s = some (es, its', s') → run x (itOps rs as es) s = some (itObs es, s') := by
  intro as
  induction as with
  | nil => intro its its' s s' es h; cases h; rfl
  | cons a as ih =>
    intro its its' s s' es h
    unfold itRun at h
    cases hs : itStep x rs its s a with
    | none => rw [hs] at h; cases h
    | some p =>
      obtain ⟨e, its1, s1⟩ := p
      rw [hs] at h
      dsimp only at h
      cases hr : itRun x rs as its1 s1 with
      | none => rw [hr] at h; cases h
      | some q =>
        obtain ⟨es1, its2, s2⟩ := q
        rw [hr] at h
        cases h
        have hrec := ih hr
        rcases itStep_spec hs as es1 with ⟨h1, h2⟩ | ⟨o, op, h1, h2, h3⟩
        · subst h2
          have e1 : itOps rs (a :: as) (e :: es1) = itOps rs as es1 := by
            rcases h1 with rfl | rfl <;> cases a <;> rfl
          have e2 : itObs (e :: es1) = itObs es1 := by rcases h1 with rfl | rfl <;> rfl
          rw [e1, e2]; exact hrec
        · rw [h1, h2]
          unfold run
          rw [h3]
          dsimp only
          rw [hrec]

/-- C62: incrementing gives the end exactly if the iterator is at the end already or the parser is; the parser is not touched
then. -/
theorem C62_end_iff {its : List Iter} {s : Parser} {i : Nat} {it : Iter} (hi : its[i]? = some it) :
    (∃ its', itStep x rs its s (.incr i) = some (.ended, its', s)) ↔ it.active = false ∨ s.eof = true := by
  unfold itStep
  dsimp only
  rw [hi]
  dsimp only
  rcases incrObs_cases (x := x) (rs := rs) it s with ⟨h, h2⟩ | ⟨h1, h2, h3⟩
  · rw [h2]; exact ⟨fun _ => h, fun _ => ⟨_, rfl⟩⟩
  · rw [h3]
    constructor
    · rintro ⟨its', h⟩
      cases hst : step x (.getNext rs) s with
      | none => rw [hst] at h; cases h
      | some q => rw [hst] at h; cases h
    · rintro (h | h)
      · rw [h1] at h; cases h
      · rw [h2] at h; cases h

/-- does the action increment iterator `i`? -/
def ItAct.Increments (i : Nat) (a : ItAct) : Prop := a = .incr i ∨ a = .postIncr i

/-- an action leaves an iterator alone, or increments it: then it is at the end if it was -/
theorem itStep_iter {its its' : List Iter} {s s' : Parser} {a : ItAct} {e : ItEv} {i : Nat} {it : Iter}
    (h : itStep x rs its s a = some (e, its', s')) (hi : its[i]? = some it) :
    ∃ it', its'[i]? = some it' ∧ (it.active = false → it'.active = false ∧ it'.value = it.value) ∧ (¬ a.Increments i → it' = it) := by
  have hlt : i < its.length := (List.getElem?_eq_some_iff.mp hi).1
  have happ : ∀ l, (its ++ l)[i]? = some it := fun l => by rw [List.getElem?_append_left hlt]; exact hi
  have hset : ∀ (j : Nat) (v : Iter) (jt : Iter) (l : List Iter), its[j]? = some jt →
      (jt.active = false → v.active = false ∧ v.value = jt.value) → (a.Increments j) →
      ∃ it', (its.set j v ++ l)[i]? = some it' ∧ (it.active = false → it'.active = false ∧ it'.value = it.value) ∧
        (¬ a.Increments i → it' = it) := by
    intro j v jt l hj hv ha
    rw [List.getElem?_append_left (by simpa using hlt), List.getElem?_set]
    by_cases e : j = i
    · subst e
      rw [hi] at hj; cases hj
      refine ⟨v, by simp [hlt], hv, fun hn => absurd ha hn⟩
    · rw [if_neg e]
      exact ⟨it, hi, fun h => ⟨h, rfl⟩, fun _ => rfl⟩
  have hkeep : ∀ {it0 it1 : Iter} {e : ItEv} {s' : Parser}, incrObs x rs it0 s = some (e, some it1, s') →
      it0.active = false → it1.active = false ∧ it1.value = it0.value := by
    intro it0 it1 e s' h h0
    rcases incrObs_cases (x := x) (rs := rs) it0 s with ⟨_, h2⟩ | ⟨h1, _, _⟩
    · rw [h2] at h; cases h; exact ⟨rfl, rfl⟩
    · rw [h0] at h1; cases h1
  cases a with
  | begin =>
    unfold itStep at h
    dsimp only at h
    cases hio : incrObs x rs { active := true, value := Conv.defaults rs } s with
    | none => rw [hio] at h; cases h
    | some p => rw [hio] at h; cases h; exact ⟨it, happ _, fun h => ⟨h, rfl⟩, fun _ => rfl⟩
  | «end» => cases h; exact ⟨it, happ _, fun h => ⟨h, rfl⟩, fun _ => rfl⟩
  | incr j =>
    unfold itStep at h
    dsimp only at h
    cases hj : its[j]? with
    | none => rw [hj] at h; cases h; exact ⟨it, hi, fun h => ⟨h, rfl⟩, fun _ => rfl⟩
    | some jt =>
      rw [hj] at h
      dsimp only at h
      cases hio : incrObs x rs jt s with
      | none => rw [hio] at h; cases h
      | some p =>
        obtain ⟨e0, oi, s0⟩ := p
        rw [hio] at h
        cases h
        have := hset j (oi.getD jt) jt [] hj (by
          cases oi with
          | none => exact fun h => ⟨h, rfl⟩
          | some it' => exact hkeep hio) (.inl rfl)
        simpa using this
  | postIncr j =>
    unfold itStep at h
    dsimp only at h
    cases hj : its[j]? with
    | none => rw [hj] at h; cases h; exact ⟨it, hi, fun h => ⟨h, rfl⟩, fun _ => rfl⟩
    | some jt =>
      rw [hj] at h
      dsimp only at h
      cases hio : incrObs x rs jt s with
      | none => rw [hio] at h; cases h
      | some p =>
        obtain ⟨e0, oi, s0⟩ := p
        rw [hio] at h
        cases oi with
        | none => cases h; exact ⟨it, hi, fun h => ⟨h, rfl⟩, fun _ => rfl⟩
        | some it' => cases h; exact hset j it' jt [jt] hj (hkeep hio) (.inr rfl)
  | copy j =>
    unfold itStep at h
    dsimp only at h
    cases hj : its[j]? with
    | none => rw [hj] at h; cases h; exact ⟨it, hi, fun h => ⟨h, rfl⟩, fun _ => rfl⟩
    | some jt => rw [hj] at h; cases h; exact ⟨it, happ _, fun h => ⟨h, rfl⟩, fun _ => rfl⟩
  | call op =>
    unfold itStep at h
    dsimp only at h
    cases hst : step x op s with
    | none => rw [hst] at h; cases h
    | some p => rw [hst] at h; cases h; exact ⟨it, hi, fun h => ⟨h, rfl⟩, fun _ => rfl⟩

/-- C62: an iterator at the end stays at the end, with the value it had; and an iterator that is not incremented itself is
not changed, whatever is done with the others and the parser. -/
theorem C62_iterators_are_separate : ∀ {as : List ItAct} {its its' : List Iter} {s s' : Parser} {es : List ItEv} {i : Nat} {it : Iter},
    itRun x rs as its s = some (es, its', s') → its[i]? = some it →
    ∃ it', its'[i]? = some it' ∧ (it.active = false → it'.active = false ∧ it'.value = it.value) ∧
      ((∀ a ∈ as, ¬ a.Increments i) → it' = it) := by
  intro as
  induction as with
  | nil => intro its its' s s' es i it h hi; cases h; exact ⟨it, hi, fun h => ⟨h, rfl⟩, fun _ => rfl⟩
  | cons a as ih =>
    intro its its' s s' es i it h hi
    unfold itRun at h
    cases hs : itStep x rs its s a with
    | none => rw [hs] at h; cases h
    | some p =>
      obtain ⟨e, its1, s1⟩ := p
      rw [hs] at h
      dsimp only at h
      cases hr : itRun x rs as its1 s1 with
      | none => rw [hr] at h; cases h
      | some q =>
        obtain ⟨es1, its2, s2⟩ := q
        rw [hr] at h
        cases h
        obtain ⟨it1, k1, k2, k3⟩ := itStep_iter hs hi
        obtain ⟨it2, j1, j2, j3⟩ := ih hr k1
        refine ⟨it2, j1, fun h0 => ?_, fun hn => ?_⟩
        · obtain ⟨a1, a2⟩ := k2 h0
          obtain ⟨b1, b2⟩ := j2 a1
          exact ⟨b1, b2.trans a2⟩
        · rw [j3 fun a' ha' => hn a' (List.mem_cons_of_mem _ ha'), k3 (hn a (List.mem_cons_self ..))]

/-- the iterator that an increment makes -/
theorem incrObs_value {it : Iter} {s s' : Parser} {e : ItEv} {oi : Option Iter} (h : incrObs x rs it s = some (e, oi, s')) :
    (e = .ended → oi = some { it with active := false }) ∧
    (∀ o v, e = .got o → o.ret = .row v → ∃ it', oi = some it' ∧ it'.active = true ∧ ∀ w, v = some w → it'.value = w) ∧
    (∀ o m, e = .got o → o.ret = .thrown m → oi = none) := by
  unfold incrObs at h
  cases hi : iterIncr x rs it s with
  | ok it' s1 =>
    rw [hi] at h
    dsimp only at h
    by_cases ha : it'.active = true
    · rw [if_pos ha] at h
      cases h
      refine ⟨by simp, fun o v ho hr => ⟨it', rfl, ha, fun w hw => ?_⟩, fun o m ho hr => ?_⟩
      · cases ho
        subst hw
        by_cases hv : s'.valid x.cfg = true
        · rw [if_pos hv] at hr; cases hr; rfl
        · rw [if_neg hv] at hr; cases hr
      · cases ho; cases hr
    · rw [if_neg ha] at h
      cases h
      refine ⟨fun _ => ?_, by simp, by simp⟩
      by_cases hk : it.active = false ∨ s.eof = true
      · rw [incr_idle hk] at hi; cases hi; rfl
      · have h1 : it.active = true := by cases hc : it.active with | true => rfl | false => exact absurd (.inl hc) hk
        have h2 : s.eof = false := by cases hc : s.eof with | false => rfl | true => exact absurd (.inr hc) hk
        rw [incr_next h1 h2] at hi
        cases hg : getNext x rs s with
        | ok v s2 => rw [M.bind_of_ok hg] at hi; cases hi; exact absurd h1 ha
        | exc m s2 => rw [M.bind_of_exc hg] at hi; cases hi
        | ub => simp only [M.bind_apply, hg] at hi; cases hi
        | nofuel => simp only [M.bind_apply, hg] at hi; cases hi
  | exc m s1 =>
    rw [hi] at h
    cases h
    exact ⟨by simp, fun o v ho hr => (by cases ho; cases hr), fun _ _ _ _ => rfl⟩
  | ub => rw [hi] at h; cases h
  | nofuel => rw [hi] at h; cases h

/-- **C62**, where the values go.  `++it_i` that gives a row makes this row the value of `it_i`; so does `it_i++`, which
returns a new iterator with the value that `it_i` had; `begin()` returns a new iterator with the row; a copy has the same
value; `end()` is at the end.  The end is a state of the one iterator that was incremented, its value stays. -/
theorem C62_values {its its' : List Iter} {s s' : Parser} {e : ItEv} :
    (∀ i it, its[i]? = some it → itStep x rs its s (.incr i) = some (e, its', s') →
      (e = .ended → its'[i]? = some { it with active := false }) ∧
      (∀ o w, e = .got o → o.ret = .row (some w) → its'[i]? = some { active := true, value := w })) ∧
    (∀ i it, its[i]? = some it → itStep x rs its s (.postIncr i) = some (e, its', s') →
      (e = .ended → its'[i]? = some { it with active := false } ∧ its'[its.length]? = some it) ∧
      (∀ o w, e = .got o → o.ret = .row (some w) → its'[i]? = some { active := true, value := w } ∧ its'[its.length]? = some it)) ∧
    (itStep x rs its s .begin = some (e, its', s') →
      (e = .ended → its'[its.length]? = some { active := false, value := Conv.defaults rs }) ∧
      (∀ o w, e = .got o → o.ret = .row (some w) → its'[its.length]? = some { active := true, value := w })) ∧
    (∀ i it, its[i]? = some it → itStep x rs its s (.copy i) = some (e, its', s') → its'[its.length]? = some it ∧ s' = s) ∧
    (itStep x rs its s .end = some (e, its', s') → (∃ it, its'[its.length]? = some it ∧ it.active = false) ∧ s' = s) := by
  refine ⟨fun i it hi h => ?_, fun i it hi h => ?_, fun h => ?_, fun i it hi h => ?_, fun h => ?_⟩
  · have hlt := (List.getElem?_eq_some_iff.mp hi).1
    unfold itStep at h
    dsimp only at h
    rw [hi] at h
    dsimp only at h
    cases hio : incrObs x rs it s with
    | none => rw [hio] at h; cases h
    | some p =>
      obtain ⟨e0, oi, s0⟩ := p
      rw [hio] at h
      cases h
      obtain ⟨h1, h2, _⟩ := incrObs_value hio
      refine ⟨fun he => ?_, fun o w he hr => ?_⟩
      · rw [h1 he]; simp [hlt]
      · obtain ⟨⟨a, v⟩, k1, k2, k3⟩ := h2 o _ he hr
        rw [k1]
        cases k2; cases k3 w rfl
        simp [hlt]
  · have hlt := (List.getElem?_eq_some_iff.mp hi).1
    unfold itStep at h
    dsimp only at h
    rw [hi] at h
    dsimp only at h
    cases hio : incrObs x rs it s with
    | none => rw [hio] at h; cases h
    | some p =>
      obtain ⟨e0, oi, s0⟩ := p
      rw [hio] at h
      obtain ⟨h1, h2, _⟩ := incrObs_value hio
      cases oi with
      | none =>
        cases h
        refine ⟨fun he => ?_, fun o w he hr => ?_⟩
        · cases h1 he
        · obtain ⟨_, k1, _⟩ := h2 o _ he hr; cases k1
      | some it1 =>
        cases h
        have key : ∀ v : Iter, (its.set i v ++ [it])[i]? = some v ∧ (its.set i v ++ [it])[its.length]? = some it := by
          intro v
          constructor
          · rw [List.getElem?_append_left (by simpa using hlt)]; simp [hlt]
          · rw [List.getElem?_append_right (by simp)]; simp
        refine ⟨fun he => ?_, fun o w he hr => ?_⟩
        · cases h1 he; exact key _
        · obtain ⟨⟨a, v⟩, k1, k2, k3⟩ := h2 o _ he hr
          cases k1; cases k2; cases k3 w rfl
          exact key _
  · unfold itStep at h
    dsimp only at h
    cases hio : incrObs x rs { active := true, value := Conv.defaults rs } s with
    | none => rw [hio] at h; cases h
    | some p =>
      obtain ⟨e0, oi, s0⟩ := p
      rw [hio] at h
      cases h
      obtain ⟨h1, h2, _⟩ := incrObs_value hio
      refine ⟨fun he => ?_, fun o w he hr => ?_⟩
      · rw [h1 he]; simp
      · obtain ⟨⟨a, v⟩, k1, k2, k3⟩ := h2 o _ he hr
        rw [k1]
        cases k2; cases k3 w rfl
        simp
  · unfold itStep at h
    dsimp only at h
    rw [hi] at h
    cases h
    simp
  · cases h
    simp

/-- C62: `it == r.end()` iff `it` is at the end; two iterators that are not at the end are equal only if they are one and the
same. -/
theorem C62_equality {its : List Iter} {i j : Nat} {a b : Iter} (hi : its[i]? = some a) (hj : its[j]? = some b) :
    (itEq its i j = true ↔ (a.active = false ∧ b.active = false) ∨ i = j) := by
  unfold itEq
  rw [hi, hj]
  dsimp only
  by_cases e : i = j
  · subst e; rw [hi] at hj; cases hj; cases a.active <;> simp
  · cases ha : a.active <;> cases hb : b.active <;> simp [e]

/-- a program is defined if the calls it makes are -/
theorem itRun_defined {P : Parser → Prop} : ∀ (as : List ItAct) (its : List Iter) {s : Parser},
    (∀ {s op}, P s → (op = .getNext rs ∨ .call op ∈ as) → ∃ o s', step x op s = some (o, s') ∧ P s') → P s →
    ∃ es its' s', itRun x rs as its s = some (es, its', s') ∧ es.length = as.length := by
  intro as
  induction as with
  | nil => intro its s _ _; exact ⟨[], its, s, rfl, rfl⟩
  | cons a as ih =>
    intro its s hdef h
    have hinc : ∀ it, ∃ e oi s', incrObs x rs it s = some (e, oi, s') ∧ P s' := by
      intro it
      rcases incrObs_cases (x := x) (rs := rs) it s with ⟨_, h2⟩ | ⟨_, _, h3⟩
      · exact ⟨_, _, s, h2, h⟩
      · obtain ⟨o, s', h4, h5⟩ := hdef h (.inl rfl)
        rw [h4] at h3
        exact ⟨_, _, s', h3, h5⟩
    have hstep : ∃ e its' s', itStep x rs its s a = some (e, its', s') ∧ P s' := by
      cases a with
      | begin =>
        obtain ⟨e, oi, s', h1, h2⟩ := hinc { active := true, value := Conv.defaults rs }
        exact ⟨e, _, s', by unfold itStep; rw [h1], h2⟩
      | «end» => exact ⟨_, _, s, rfl, h⟩
      | incr i =>
        unfold itStep
        dsimp only
        cases its[i]? with
        | none => exact ⟨_, _, s, rfl, h⟩
        | some it =>
          obtain ⟨e, oi, s', h1, h2⟩ := hinc it
          exact ⟨e, _, s', by dsimp only; rw [h1], h2⟩
      | postIncr i =>
        unfold itStep
        dsimp only
        cases its[i]? with
        | none => exact ⟨_, _, s, rfl, h⟩
        | some it =>
          obtain ⟨e, oi, s', h1, h2⟩ := hinc it
          cases oi with
          | none => exact ⟨e, _, s', by dsimp only; rw [h1], h2⟩
          | some it' => exact ⟨e, _, s', by dsimp only; rw [h1], h2⟩
      | copy i =>
        unfold itStep
        dsimp only
        cases its[i]? with
        | none => exact ⟨_, _, s, rfl, h⟩
        | some it => exact ⟨_, _, s, rfl, h⟩
      | call op =>
        obtain ⟨o, s', h1, h2⟩ := hdef h (.inr (List.mem_cons_self ..))
        exact ⟨_, _, s', by unfold itStep; dsimp only; rw [h1], h2⟩
    obtain ⟨e, its1, s1, h1, h2⟩ := hstep
    obtain ⟨es, its2, s2, h3, h4⟩ := ih its1 (fun hp ho => hdef hp (ho.imp id (List.mem_cons_of_mem _))) h2
    exact ⟨e :: es, its2, s2, by unfold itRun; rw [h1]; dsimp only; rw [h3], by simp [h4]⟩

/-- C62 with C54: programs without undefined behaviour -/
theorem C62_is_defined (hx : x.Ok) (hm : x.cfg.multiline = false) (as : List ItAct) (its : List Iter) {s : Parser} (h : Reach x s) :
    ∃ es its' s', itRun x rs as its s = some (es, its', s') ∧ es.length = as.length := by
  refine itRun_defined (P := Reach x) as its (fun {s op} h _ => ?_) h
  obtain ⟨os, s', h1, _⟩ := C54_calls_are_defined hx hm h [op]
  unfold run at h1
  cases hst : step x op s with
  | none => rw [hst] at h1; cases h1
  | some p => exact ⟨p.1, p.2, rfl, h.step hst⟩

/-- C62 with C54, with multiline: programs that do not call `or_else` (see C54) -/
theorem C62_is_defined_multiline (hx : x.Ok) (as : List ItAct) (hn : ∀ a bs, .call (.chain a bs) ∈ as → bs = []) (its : List Iter)
    {s : Parser} (h : ReachT x s) : ∃ es its' s', itRun x rs as its s = some (es, its', s') ∧ es.length = as.length := by
  refine itRun_defined (P := ReachT x) as its (fun {s op} h ho => ?_) h
  have hT : op.Tame x s.line s.eof := by
    intro _ a bs e
    rcases ho with ho | ho
    · rw [ho] at e; cases e
    · rw [e] at ho; exact .inl (hn a bs ho)
  obtain ⟨os, s', h1, _⟩ := C54_calls_multiline_partial hx h [op] ⟨hT, fun _ _ _ => trivial⟩
  unfold run at h1
  cases hst : step x op s with
  | none => rw [hst] at h1; cases h1
  | some p => exact ⟨p.1, p.2, rfl, h.step hT hst⟩

/-- only iterators, no calls on the parser -/
def NoCalls (as : List ItAct) : Prop := ∀ op, .call op ∉ as

theorem ops_no_calls : ∀ {as : List ItAct} {es : List ItEv}, NoCalls as → ∃ n, itOps rs as es = List.replicate n (.getNext rs) := by
  intro as
  induction as with
  | nil => intro es _; exact ⟨0, by cases es <;> rfl⟩
  | cons a as ih =>
    intro es hn
    have hn' : NoCalls as := fun op h => hn op (List.mem_cons_of_mem _ h)
    cases es with
    | nil => exact ⟨0, by cases a <;> rfl⟩
    | cons e es =>
      obtain ⟨n, hnn⟩ := ih (es := es) hn'
      cases a with
      | call op => exact absurd (List.mem_cons_self ..) (hn op)
      | _ =>
        cases e with
        | got o => exact ⟨n + 1, by simp only [itOps, hnn]; rfl⟩
        | _ => exact ⟨n, by simp only [itOps, hnn]⟩

/-- **C62** for a new parser and a program that only uses iterators: the values seen through the iterators, in the order of
the increments, are the rows of the input in order: the k-th is the conversion of the k-th row. -/
theorem C62_rows (hx : x.Ok) (hm : x.cfg.multiline = false) {s s' : Parser} (h : Created x s) (hrs : rs ≠ [])
    {as : List ItAct} (hn : NoCalls as) {its its' : List Iter} {es : List ItEv} (hr : itRun x rs as its s = some (es, its', s')) :
    ∀ k o, (itObs es)[k]? = some o → o.eof = decide (x.rows.length ≤ k + 1) ∧
      match x.rows[k]? with
      | some l => Delivers x o (Conv.convertLine x.cfg rs x.delim { spl := { mem := l ++ [NUL] } })
      | none => NoRow o := by
  intro k o hk
  obtain ⟨n, hops⟩ := ops_no_calls (rs := rs) (es := es) hn
  have hrun := C62_iterators_are_calls hr
  rw [hops] at hrun
  obtain ⟨os, s2, h1, h2⟩ := C25_sequence hx hm h (reqs := List.replicate n rs) (by
    intro r hmem; rw [List.eq_of_mem_replicate hmem]; exact hrs)
  rw [List.map_replicate, hrun] at h1
  cases h1
  have hlen := run_length _ hrun
  have hk' : k < n := by
    have := (List.getElem?_eq_some_iff.mp hk).1
    rw [hlen, List.length_replicate] at this
    exact this
  obtain ⟨o', g1, g2, g3⟩ := h2 k rs (by simp [hk'])
  rw [hk] at g1
  cases g1
  exact ⟨g2, g3⟩

/-- **C62** with multiline and from any moment on: the values seen through the iterators are the rows that are left, in
order. -/
theorem C62_rows_multiline (hx : x.MlOk) {s s' : Parser} (h : ReachT x s) {L : List MlRow} (hL : x.MlRows s.line L) (hrs : rs ≠ [])
    {as : List ItAct} (hn : NoCalls as) {its its' : List Iter} {es : List ItEv} (hr : itRun x rs as its s = some (es, its', s')) :
    ∀ k o, (itObs es)[k]? = some o → o.eof = decide (L.length ≤ k + 1) ∧
      match L[k]? with
      | some (.text t) => Delivers x o (s.fresh x rs t)
      | _ => NoRow o := by
  intro k o hk
  obtain ⟨n, hops⟩ := ops_no_calls (rs := rs) (es := es) hn
  have hrun := C62_iterators_are_calls hr
  rw [hops] at hrun
  obtain ⟨os, s2, h1, h2⟩ := C37_sequence hx (List.replicate n rs) h hL (by
    intro r hmem; rw [List.eq_of_mem_replicate hmem]; exact hrs)
  rw [List.map_replicate, hrun] at h1
  cases h1
  have hlen := run_length _ hrun
  have hk' : k < n := by
    have := (List.getElem?_eq_some_iff.mp hk).1
    rw [hlen, List.length_replicate] at this
    exact this
  obtain ⟨o', g1, g2, g3⟩ := h2 k rs (by simp [hk'])
  rw [hk] at g1
  cases g1
  exact ⟨g2, g3⟩

end

/-! ## Cases -/

open Demo in
/-- the hypotheses are met: two iterators and a copy, taking turns -/
example : Created (ctx cs "a\nb\nc\n") (start cs "a\nb\nc\n") ∧ NoCalls [.begin, .copy 0, .incr 1, .postIncr 0, .incr 1, .incr 0] ∧
    (itRun (ctx cs "a\nb\nc\n") [str] [.begin, .copy 0, .incr 1, .postIncr 0, .incr 1, .incr 0] [] (start cs "a\nb\nc\n")).map
      (fun p => (p.1.map fun e => match e with | .got o => some o.ret | _ => none, p.2.1.map fun it => (it.active, it.value))) =
    some ([some (.row (some [.str (bs "a")])), none, some (.row (some [.str (bs "b")])), some (.row (some [.str (bs "c")])), none, none],
      [(false, [.str (bs "c")]), (false, [.str (bs "b")]), (true, [.str (bs "a")])]) := by
  refine ⟨created cs_wf rfl _, ?_, by decide +kernel⟩
  intro op h
  simp at h

open Demo in
/-- the same with rows of several lines -/
example : Created (ctx cm "a\n\"b\nc\"\nd") (start cm "a\n\"b\nc\"\nd") ∧ (ctx cm "a\n\"b\nc\"\nd").MlOk ∧
    (∃ L, (ctx cm "a\n\"b\nc\"\nd").MlRows (start cm "a\n\"b\nc\"\nd").line L) ∧
    (itRun (ctx cm "a\n\"b\nc\"\nd") [str] [.begin, .begin, .incr 0, .incr 0, .incr 1] [] (start cm "a\n\"b\nc\"\nd")).map
      (fun p => (p.1.map fun e => match e with | .got o => some o.ret | _ => none, p.2.1.map fun it => (it.active, it.value))) =
    some ([some (.row (some [.str (bs "a")])), some (.row (some [.str (bs "b\nc")])), some (.row (some [.str (bs "d")])), none, none],
      [(false, [.str (bs "d")]), (false, [.str (bs "b\nc")])]) :=
  ⟨createdM cm_wf _, cm_ok (by decide +kernel), (C37_rows_exist _ _).imp fun _ h => h.1, by decide +kernel⟩

open Demo in
/-- C62: what is unusual of these iterators: a copy of an iterator does not equal it (unless both are at the end), and a copy
kept from before the last row does not equal `end()` although nothing is left to read. -/
theorem C62_copies_differ :
    (itRun (ctx cs "a\n") [str] [.begin, .copy 0, .end, .incr 0] [] (start cs "a\n")).map
      (fun p => (itEq p.2.1 0 2, itEq p.2.1 0 1, itEq p.2.1 1 2)) = some (true, false, false) ∧
    (itRun (ctx cs "a\n") [str] [.begin, .copy 0] [] (start cs "a\n")).map (fun p => (itEq p.2.1 0 0, itEq p.2.1 0 1)) =
      some (true, false) := by
  exact ⟨by decide +kernel, by decide +kernel⟩

end Parser
end Ssp
