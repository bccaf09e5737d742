import Verif.Spec.Object
import Verif.Props.ParserChainMl
import Verif.Props.ParserHeader
/-!
# Objects instead of tuples (C59)
-/
namespace Ssp
open Spec

variable {β : Type}

/-! ## Converters and `get_object` -/

/-- C59: `convert_object(line)` does what `convert(line)` does, and makes the object from the values. -/
theorem C59_convert_object (c : Cfg) (mk : List Val → β) (rs : List Req) (delim : Bytes) (cv : Conv) :
    Conv.convertObjectLine c mk rs delim cv = (Conv.convertLine c rs delim cv).map mk ∧
    Conv.convertObject c mk rs cv = (Conv.convertCached c rs cv).map mk := by
  constructor
  · simp only [Conv.convertObjectLine, M.bind_apply]; cases Conv.convertLine c rs delim cv <;> rfl
  · simp only [Conv.convertObject, M.bind_apply]; cases Conv.convertCached c rs cv <;> rfl

/-- C59: `get_object` does what `get_next` does - the same parser afterwards, the same exception - and makes the object from
the values, in any state. -/
theorem C59_get_object (x : Ctx) (mk : List Val → β) (rs : List Req) (s : Parser) :
    Parser.getObject x mk rs s = (Parser.getNext x rs s).map mk := by
  simp only [Parser.getObject, M.bind_apply]; cases Parser.getNext x rs s <;> rfl

/-- C59: at any time, when the next row has the text `l`: `get_object` returns the object `o` and leaves the parser valid
exactly if `o` is made from the values a newly made converter finds in `l`. -/
theorem C59_row_object {x : Ctx} {s : Parser} {l : Bytes} {rs : List Req} (hx : x.Ok) (h : Parser.ReachT x s)
    (hr : x.RowAt s.line l) (hrs : rs ≠ []) (mk : List Val → β) (o : β) :
    (∃ s', Parser.getObject x mk rs s = .ok o s' ∧ s'.valid x.cfg = true) ↔
      ∃ vs, Ssp.Yields x.cfg (s.fresh x rs l) vs ∧ o = mk vs := by
  rw [C59_get_object]
  have hy := fun vs => rowAt_iff hx h hr hrs vs
  constructor
  · rintro ⟨s', h1, h2⟩
    cases hg : Parser.getNext x rs s with
    | ok vs s1 =>
      rw [hg] at h1
      cases h1
      exact ⟨vs, (hy vs).mp ⟨_, hg, h2⟩, rfl⟩
    | exc _ _ => rw [hg] at h1; cases h1
    | ub => rw [hg] at h1; cases h1
    | nofuel => rw [hg] at h1; cases h1
  · rintro ⟨vs, h1, rfl⟩
    obtain ⟨s', h2, h3⟩ := (hy vs).mpr h1
    exact ⟨s', by rw [h2]; rfl, h3⟩

/-! ## Composites -/

theorem tryInvokeObj_eq (x : Ctx) (a : Parser.ObjAlt β) (v : List Val) :
    Parser.tryInvokeObj x (a.make v) a.fn = Parser.tryInvoke x v a.tuples.fn := by
  unfold Parser.tryInvokeObj Parser.tryInvoke Parser.ObjAlt.tuples
  cases a.fn <;> rfl

/-- what an alternative with an object does, from what the one with the tuple does -/
def outOf (a : Parser.ObjAlt β) (r : Option (List Val) × Bool) : Parser.ObjOut β :=
  ⟨r.1.map a.make, r.2, r.1.isSome || r.2⟩

theorem tryObject_eq (x : Ctx) (a : Parser.ObjAlt β) (s : Parser) :
    Parser.tryObject x a s = (Parser.tryNext x a.tuples s).map fun r => { outOf a r with built := true } := by
  unfold Parser.tryObject Parser.tryNext
  simp only [M.bind_apply, show a.tuples.reqs = a.reqs from rfl]
  cases hg : Parser.getNext x a.reqs s with
  | ok v s1 =>
    simp only [M.get_apply, toObject]
    by_cases hv : s1.valid x.cfg = true
    · simp only [hv, if_true, tryInvokeObj_eq, M.bind_apply]
      cases Parser.tryInvoke x v a.tuples.fn s1 with
      | ok called s2 =>
        simp only [M.get_apply, M.pure_apply, Res.map, outOf]
        by_cases hv2 : s2.valid x.cfg = true <;> simp [hv2]
      | _ => rfl
    · simp only [hv, Bool.false_eq_true, if_false]
      rfl
  | _ => rfl

theorem orObject_eq (x : Ctx) (a : Parser.ObjAlt β) (s : Parser) :
    Parser.orObject x a s = (Parser.orElse x a.tuples s).map (outOf a) := by
  unfold Parser.orObject Parser.orElse
  simp only [M.get_bind, show a.tuples.reqs = a.reqs from rfl]
  by_cases hv0 : s.valid x.cfg = true
  · simp only [hv0, if_true]; rfl
  · simp only [hv0, Bool.false_eq_true, if_false, M.bind_apply]
    cases hg : Parser.trySame x a.reqs s with
    | ok v s1 =>
      simp only [M.get_apply, toObject]
      by_cases hv : s1.valid x.cfg = true
      · simp only [hv, if_true, tryInvokeObj_eq, M.bind_apply]
        cases hi : Parser.tryInvoke x v a.tuples.fn s1 with
        | ok called s2 =>
          simp only [M.get_apply, M.pure_apply, Res.map, outOf]
          by_cases hv2 : s2.valid x.cfg = true
          · simp [hv2]
          · have hc : called = true := by
              revert hi
              unfold Parser.tryInvoke
              cases a.tuples.fn with
              | none => intro hi; cases hi; exact absurd hv hv2
              | some f =>
                simp only
                have herr : ∀ m, (Parser.handleError x.cfg m >>= fun _ => pure true) s1 = .ok called s2 → called = true := by
                  intro m hm
                  rw [M.bind_apply] at hm
                  cases hh : Parser.handleError x.cfg m s1 with
                  | ok u s3 => rw [hh] at hm; cases hm; rfl
                  | exc _ _ => rw [hh] at hm; cases hm
                  | ub => rw [hh] at hm; cases hm
                  | nofuel => rw [hh] at hm; cases hm
                cases f v with
                | none => intro hi; cases hi; rfl
                | some b =>
                  cases b with
                  | true => intro hi; cases hi; rfl
                  | false => exact herr _
            simp [hv2, hc]
        | _ => rfl
      · simp only [hv, Bool.false_eq_true, if_false]
        rfl
    | _ => rfl

theorem orObjects_eq (x : Ctx) : ∀ (as : List (Parser.ObjAlt β)) (s : Parser),
    Parser.orObjects x as s = (Parser.orElses x (as.map (·.tuples)) s).map fun r => List.zipWith outOf as r := by
  intro as
  induction as with
  | nil => intro s; rfl
  | cons a as ih =>
    intro s
    unfold Parser.orObjects
    simp only [List.map_cons]
    unfold Parser.orElses
    simp only [M.bind_apply, orObject_eq]
    cases Parser.orElse x a.tuples s with
    | ok r s1 =>
      simp only [Res.map, ih]
      cases Parser.orElses x (as.map (·.tuples)) s1 <;> rfl
    | _ => rfl

theorem objChain_eq (x : Ctx) (a : Parser.ObjAlt β) (as : List (Parser.ObjAlt β)) (s : Parser) :
    Parser.objChain x a as s = (Parser.tryChain x a.tuples (as.map (·.tuples)) s).map fun r =>
      match List.zipWith outOf (a :: as) r with
      | [] => []
      | o :: os => { o with built := true } :: os := by
  unfold Parser.objChain Parser.tryChain
  simp only [M.bind_apply, tryObject_eq]
  cases Parser.tryNext x a.tuples s with
  | ok r s1 =>
    simp only [Res.map, orObjects_eq]
    cases Parser.orElses x (as.map (·.tuples)) s1 <;> rfl
  | _ => rfl

theorem suits_tuples {x : Ctx} {s : Parser} {l : Bytes} {b : Parser.ObjAlt β} {vs : List Val} :
    b.tuples.Suits x s l vs ↔ b.Suits x s l vs := by
  unfold Parser.Alt.Suits Parser.ObjAlt.Suits Parser.Alt.Converts Parser.ObjAlt.Converts Parser.ObjAlt.tuples
  cases b.fn with
  | none => simp
  | some f => simp

/-- C59 (and C41): at any time, when the next row has the text `l`: in `try_object(a).or_object(...)...` the optional of an
alternative holds `o` exactly if this alternative converts the row to some values, `o` is the object made of them, its
callback accepts this object, and no earlier alternative suits; its callback is called exactly if it converts the row and
no earlier one suits; its constructor is called exactly in the same case, but the one of `try_object` always, also for rows
that fail; `valid()` holds afterwards exactly if one optional is engaged; and the parser is afterwards in the state it has
after the chain with tuples: the same rows are left. -/
theorem C59_first_that_suits {x : Ctx} {s : Parser} {l : Bytes} (hx : x.Ok) (hth : x.cfg.mode ≠ .throw) (h : Parser.ReachT x s)
    (hr : x.RowAt s.line l) {a : Parser.ObjAlt β} {as : List (Parser.ObjAlt β)} (hne : ∀ b ∈ a :: as, b.reqs ≠ []) :
    ∃ outs s', Parser.objChain x a as s = .ok outs s' ∧ outs.length = as.length + 1 ∧
      (∀ (i : Nat) (b : Parser.ObjAlt β), (a :: as)[i]? = some b → ∃ out, outs[i]? = some out ∧
        (∀ o, out.opt = some o ↔ (∃ vs, b.Suits x s l vs ∧ o = b.make vs) ∧
          ∀ (j : Nat) (b' : Parser.ObjAlt β), j < i → (a :: as)[j]? = some b' → ∀ vs', ¬ b'.Suits x s l vs') ∧
        (out.called = true ↔ (b.fn.isSome = true ∧ ∃ vs, b.Converts x s l vs) ∧
          ∀ (j : Nat) (b' : Parser.ObjAlt β), j < i → (a :: as)[j]? = some b' → ∀ vs', ¬ b'.Suits x s l vs') ∧
        (out.built = true ↔ i = 0 ∨ (∃ vs, b.Converts x s l vs) ∧
          ∀ (j : Nat) (b' : Parser.ObjAlt β), j < i → (a :: as)[j]? = some b' → ∀ vs', ¬ b'.Suits x s l vs')) ∧
      (s'.valid x.cfg = true ↔ ∃ out ∈ outs, out.opt.isSome = true) ∧
      ∃ ob, Parser.step x (.chain a.tuples (as.map (·.tuples))) s = some (ob, s') := by
  have key : ∃ o s' outs, Parser.step x (.chain a.tuples (as.map (·.tuples))) s = some (o, s') ∧ o.ret = .opts outs ∧
      outs.length = as.length + 1 ∧
      (∀ (i : Nat) (b : Parser.Alt), (a.tuples :: as.map (·.tuples))[i]? = some b → ∃ out, outs[i]? = some out ∧
        (∀ vs, out.1 = some vs ↔ b.Suits x s l vs ∧
          ∀ (j : Nat) (b' : Parser.Alt), j < i → (a.tuples :: as.map (·.tuples))[j]? = some b' → ∀ vs', ¬ b'.Suits x s l vs') ∧
        (out.2 = true ↔ (b.fn.isSome = true ∧ ∃ vs, b.Converts x s l vs) ∧
          ∀ (j : Nat) (b' : Parser.Alt), j < i → (a.tuples :: as.map (·.tuples))[j]? = some b' → ∀ vs', ¬ b'.Suits x s l vs')) ∧
      (o.valid = true ↔ ∃ out ∈ outs, out.1.isSome = true) := by
    have hne' : ∀ b ∈ a.tuples :: as.map (·.tuples), b.reqs ≠ [] := by
      intro b hb
      rcases List.mem_cons.mp hb with rfl | hb
      · exact hne a (by simp)
      · obtain ⟨b0, hb0, rfl⟩ := List.mem_map.mp hb
        exact hne b0 (by simp [hb0])
    rcases hr with ⟨hm, ls, hr⟩ | ⟨hml, k, hk, rfl⟩
    · obtain ⟨o, s', outs, h1, h2, h3, h4, h5, _⟩ := C41_first_that_suits hx hm hth h.reach hr hne'
      exact ⟨o, s', outs, h1, h2, by simpa using h3, h4, h5⟩
    · obtain ⟨o, s', outs, h1, h2, h3, h4, h5, _⟩ := C41_first_that_suits_multiline hml hth h hk hne'
      exact ⟨o, s', outs, h1, h2, by simpa using h3, h4, h5⟩
  obtain ⟨ob, s', outs, h1, h2, h3, h4, h5⟩ := key
  have hchain : Parser.tryChain x a.tuples (as.map (·.tuples)) s = .ok outs s' ∧ ob.valid = s'.valid x.cfg := by
    have h1' := h1
    unfold Parser.step Op.exec at h1'
    simp only [M.get_bind] at h1'
    by_cases he : s.eof = true
    · simp only [he, if_true, M.pure_apply, Option.some.injEq, Prod.mk.injEq] at h1'
      rw [← h1'.1] at h2
      have : (Ret.opts ([] : List (Option (List Val) × Bool))) = .opts outs := h2
      cases this
      simp at h3
    · simp only [he, Bool.false_eq_true, if_false, M.bind_apply] at h1'
      cases hc : Parser.tryChain x a.tuples (as.map (·.tuples)) s with
      | ok outs' s1 =>
        rw [hc] at h1'
        simp only [M.pure_apply, Option.some.injEq, Prod.mk.injEq] at h1'
        obtain ⟨h1', rfl⟩ := h1'
        rw [← h1'] at h2
        have : (Ret.opts outs') = .opts outs := h2
        cases this
        rw [← h1']
        exact ⟨rfl, rfl⟩
      | exc e s1 =>
        rw [hc] at h1'
        simp only [Option.some.injEq, Prod.mk.injEq] at h1'
        rw [← h1'.1] at h2
        have : Ret.thrown e = .opts outs := h2
        cases this
      | ub => rw [hc] at h1'; cases h1'
      | nofuel => rw [hc] at h1'; cases h1'
  obtain ⟨hc, hval⟩ := hchain
  have hget : ∀ (i : Nat), (a.tuples :: as.map (·.tuples))[i]? = ((a :: as)[i]?).map (·.tuples) := by
    intro i; rw [← List.map_cons (f := Parser.ObjAlt.tuples), List.getElem?_map]
  have hnone : ∀ i, (∀ (j : Nat) (b' : Parser.Alt), j < i → (a.tuples :: as.map (·.tuples))[j]? = some b' → ∀ vs', ¬ b'.Suits x s l vs') ↔
      ∀ (j : Nat) (b' : Parser.ObjAlt β), j < i → (a :: as)[j]? = some b' → ∀ vs', ¬ b'.Suits x s l vs' := by
    intro i
    constructor
    · intro h j b' hj hb' vs' hs
      exact h j b'.tuples hj (by rw [hget, hb']; rfl) vs' (suits_tuples.mpr hs)
    · intro h j b' hj hb' vs' hs
      rw [hget] at hb'
      obtain ⟨b0, hb0, rfl⟩ := Option.map_eq_some_iff.mp hb'
      exact h j b0 hj hb0 vs' (suits_tuples.mp hs)
  obtain ⟨r, rs, rfl⟩ : ∃ r rs, outs = r :: rs := by
    cases outs with
    | nil => simp at h3
    | cons r rs => exact ⟨r, rs, rfl⟩
  have hout : Parser.objChain x a as s = .ok ({ outOf a r with built := true } :: List.zipWith outOf as rs) s' := by
    rw [objChain_eq, hc]; rfl
  have hlen : rs.length = as.length := by simpa using h3
  refine ⟨_, s', hout, by simp [hlen], ?_, ?_, ob, h1⟩
  · intro i b hb
    obtain ⟨out, g1, g2, g3⟩ := h4 i b.tuples (by rw [hget, hb]; rfl)
    have hopt : ∀ o, (out.1.map b.make) = some o ↔ (∃ vs, b.Suits x s l vs ∧ o = b.make vs) ∧
        ∀ (j : Nat) (b' : Parser.ObjAlt β), j < i → (a :: as)[j]? = some b' → ∀ vs', ¬ b'.Suits x s l vs' := by
      intro o
      rw [Option.map_eq_some_iff]
      constructor
      · rintro ⟨vs, h, rfl⟩
        obtain ⟨h, h'⟩ := (g2 vs).mp h
        exact ⟨⟨vs, suits_tuples.mp h, rfl⟩, (hnone i).mp h'⟩
      · rintro ⟨⟨vs, h, rfl⟩, h'⟩
        exact ⟨vs, (g2 vs).mpr ⟨suits_tuples.mpr h, (hnone i).mpr h'⟩, rfl⟩
    have hcal : out.2 = true ↔ (b.fn.isSome = true ∧ ∃ vs, b.Converts x s l vs) ∧
        ∀ (j : Nat) (b' : Parser.ObjAlt β), j < i → (a :: as)[j]? = some b' → ∀ vs', ¬ b'.Suits x s l vs' := by
      rw [g3, hnone i]
      have : b.tuples.fn.isSome = b.fn.isSome := by unfold Parser.ObjAlt.tuples; simp
      rw [this]
      rfl
    have hbuilt : (out.1.isSome || out.2) = true ↔ (∃ vs, b.Converts x s l vs) ∧
        ∀ (j : Nat) (b' : Parser.ObjAlt β), j < i → (a :: as)[j]? = some b' → ∀ vs', ¬ b'.Suits x s l vs' := by
      rw [Bool.or_eq_true, hcal]
      constructor
      · rintro (h | ⟨⟨_, h⟩, h'⟩)
        · obtain ⟨vs, hvs⟩ := Option.isSome_iff_exists.mp h
          obtain ⟨h, h'⟩ := (g2 vs).mp hvs
          exact ⟨⟨vs, h.1⟩, (hnone i).mp h'⟩
        · exact ⟨h, h'⟩
      · rintro ⟨⟨vs, h⟩, h'⟩
        cases hf : b.fn with
        | none =>
          refine .inl ?_
          have : out.1 = some vs := (g2 vs).mpr ⟨suits_tuples.mpr ⟨h, fun f hf' => by rw [hf] at hf'; cases hf'⟩, (hnone i).mpr h'⟩
          rw [this]; rfl
        | some f => exact .inr ⟨⟨rfl, vs, h⟩, h'⟩
    cases i with
    | zero =>
      simp only [List.getElem?_cons_zero, Option.some.injEq] at hb g1
      subst hb; subst g1
      exact ⟨_, rfl, hopt, hcal, by simp⟩
    | succ i =>
      simp only [List.getElem?_cons_succ] at hb g1
      refine ⟨outOf b out, ?_, hopt, hcal, ?_⟩
      · rw [List.getElem?_cons_succ, List.getElem?_zipWith, hb, g1]
      · show (out.1.isSome || out.2) = true ↔ _
        rw [hbuilt]; simp
  · rw [← hval, h5]
    constructor
    · rintro ⟨out, hm, hs⟩
      obtain ⟨i, hi⟩ := List.mem_iff_getElem?.mp hm
      cases i with
      | zero =>
        simp only [List.getElem?_cons_zero, Option.some.injEq] at hi
        subst hi
        exact ⟨_, List.mem_cons_self .., by simpa [outOf] using hs⟩
      | succ i =>
        simp only [List.getElem?_cons_succ] at hi
        have hlt : i < rs.length := by
          false_or_by_contra
          rw [List.getElem?_eq_none (by omega)] at hi; cases hi
        refine ⟨outOf (as[i]'(by omega)) out, List.mem_cons_of_mem _ ?_, by simpa [outOf] using hs⟩
        rw [List.mem_iff_getElem?]
        exact ⟨i, by rw [List.getElem?_zipWith, hi, List.getElem?_eq_getElem (by omega)]⟩
    · rintro ⟨out, hm, hs⟩
      rcases List.mem_cons.mp hm with rfl | hm
      · exact ⟨r, List.mem_cons_self .., by simpa [outOf] using hs⟩
      · obtain ⟨i, hi⟩ := List.mem_iff_getElem?.mp hm
        rw [List.getElem?_zipWith] at hi
        cases h6 : as[i]? with
        | none => rw [h6] at hi; cases hi
        | some b =>
          cases h7 : rs[i]? with
          | none => rw [h6, h7] at hi; cases hi
          | some r' =>
            rw [h6, h7] at hi
            cases hi
            exact ⟨r', List.mem_cons_of_mem _ (List.mem_of_getElem? h7), by simpa [outOf] using hs⟩

/-! ## Loops -/

theorem objIncr_eq (x : Ctx) (mk : List Val → β) (rs : List Req) (it : Parser.Iter) (s : Parser) :
    Parser.objIncr x mk rs ⟨it.active, mk it.value⟩ s = (Parser.iterIncr x rs it s).map fun it => ⟨it.active, mk it.value⟩ := by
  unfold Parser.objIncr Parser.iterIncr
  simp only [M.get_bind]
  by_cases he : (!it.active || s.eof) = true
  · simp only [he, if_true]; rfl
  · simp only [he]
    simp only [if_false, Bool.false_eq_true, M.bind_apply, C59_get_object]
    cases Parser.getNext x rs s <;> rfl

theorem objLoop_eq (x : Ctx) (mk : List Val → β) (rs : List Req) : ∀ (f : Nat) (it : Parser.Iter) (s : Parser),
    Parser.objLoop x mk rs f ⟨it.active, mk it.value⟩ s = (Parser.iterLoop x rs f it s).map (List.map mk) := by
  intro f
  induction f with
  | zero => intro it s; rfl
  | succ f ih =>
    intro it s
    unfold Parser.objLoop Parser.iterLoop
    by_cases ha : it.active = true
    · simp only [ha, if_true, M.bind_apply]
      have := objIncr_eq x mk rs it s
      rw [ha] at this
      rw [this]
      cases Parser.iterIncr x rs it s with
      | ok it' s1 =>
        simp only [Res.map]
        rw [ih]
        cases Parser.iterLoop x rs f it' s1 <;> rfl
      | _ => rfl
    · simp only [ha]; rfl

/-- C59 (and C42): `for (o : p.iterate_object<T, ...>())`, started in any state, visits the objects made from the tuples that
`for (v : p.iterate<...>())` visits, in this order, and leaves the same parser, or ends with the same exception.  (`n` bounds
the number of rounds in the model; see C29 and C42 for how many there are.) -/
theorem C59_iterate_object (x : Ctx) (mk : List Val → β) (o0 : β) (rs : List Req) (n : Nat) (s : Parser) :
    Parser.iterateObject x mk o0 rs (n + 1) s = (Parser.iterate x rs (n + 1) s).map (List.map mk) := by
  unfold Parser.iterateObject Parser.iterate
  have hstart : (Parser.objIncr x mk rs ⟨true, o0⟩ >>= Parser.objLoop x mk rs (n + 1)) s =
      (Parser.objIncr x mk rs ⟨true, mk (Conv.defaults rs)⟩ >>= Parser.objLoop x mk rs (n + 1)) s := by
    simp only [M.bind_apply]
    unfold Parser.objIncr
    simp only [M.get_bind]
    by_cases he : s.eof = true
    · simp [he, Parser.objLoop]
    · simp only [he, Bool.not_true, Bool.false_or, Bool.false_eq_true, if_false]
  rw [hstart]
  simp only [M.bind_apply]
  rw [objIncr_eq x mk rs ⟨true, Conv.defaults rs⟩]
  cases Parser.iterIncr x rs ⟨true, Conv.defaults rs⟩ s with
  | ok it s1 => exact objLoop_eq x mk rs (n + 1) it s1
  | _ => rfl

/-! ## Concrete cases -/

namespace Demo

/-- a point of the plane, or a name -/
inductive Thing where
  | point (a b : Int)
  | name (t : Bytes)
  | nothing
  deriving DecidableEq

/-- the constructors -/
def makePoint : List Val → Thing
  | [.int a, .int b] => .point a b
  | _ => .nothing

def makeName : List Val → Thing
  | [.str t] => .name t
  | _ => .nothing

/-- `try_object<point, int, int>(f).or_object<name, std::string>()` -/
def things (d : String) (n : Nat) : Option (List (List (Parser.ObjOut Thing))) :=
  let rec go : Nat → Parser → Option (List (List (Parser.ObjOut Thing)))
    | 0, _ => some []
    | n + 1, s =>
      match Parser.objChain (ctx cs d) ⟨[num, num], makePoint, some fun o => some (o != .point 0 0)⟩ [⟨[str], makeName, none⟩] s with
      | .ok outs s' => (go n s').map (outs :: ·)
      | _ => none
  go n (start cs d)

/-- an alternative of `things` -/
def pointAlt : Parser.ObjAlt Thing := ⟨[num, num], makePoint, some fun o => some (o != .point 0 0)⟩
def nameAlt : Parser.ObjAlt Thing := ⟨[str], makeName, none⟩
end Demo

open Demo in
/-- rows at work: a point; a name, after the constructor of `point` was called in vain; a point that the callback refuses -/
example : things "1,2\nada\n0,0\n" 3 = some
    [[⟨some (.point 1 2), true, true⟩, ⟨none, false, false⟩],
     [⟨none, false, true⟩, ⟨some (.name (bs "ada")), false, true⟩],
     [⟨none, true, true⟩, ⟨none, false, false⟩]] := by
  decide +kernel

open Demo in
/-- the hypotheses of `C59_first_that_suits` and `C59_row_object` are met, here by a new parser -/
example : ((ctx cs "1,2\nada\n").Ok ∧ cs.mode ≠ .throw ∧ Parser.ReachT (ctx cs "1,2\nada\n") (start cs "1,2\nada\n") ∧
    (ctx cs "1,2\nada\n").RowAt (start cs "1,2\nada\n").line (bs "1,2") ∧ ∀ b ∈ [pointAlt, nameAlt], b.reqs ≠ []) := by
  refine ⟨ok cs cs_wf _, by decide, (created cs_wf rfl _).reachT, .inl ⟨rfl, [bs "ada"], by decide +kernel⟩, ?_⟩
  intro b hb
  simp only [List.mem_cons, List.not_mem_nil, or_false] at hb
  rcases hb with rfl | rfl <;> simp [pointAlt, nameAlt]

open Demo in
/-- objects visited by a loop -/
example : ∃ l s, Parser.iterateObject (ctx cs "1,2\n3,4\n") makePoint .nothing [num, num] 5 (start cs "1,2\n3,4\n") = .ok l s ∧
    l = [.point 1 2, .point 3 4] :=
  Res.ok_of (by decide +kernel)

open Demo in
/-- C59, found while proving `C59_first_that_suits`: the constructor named in `try_object` (and in `get_object`) is called for
rows that fail, too, and not with default values: here for the row "7,x", with a 7 that was converted before the error. -/
theorem C59_constructed_from_failed_row :
    ∃ o s, Parser.getObject (ctx cs "7,x\n") makePoint [num, num] (start cs "7,x\n") = .ok o s ∧
      (o = .point 7 0 ∧ s.valid cs = false) :=
  Res.ok_of (by decide +kernel)

end Ssp
