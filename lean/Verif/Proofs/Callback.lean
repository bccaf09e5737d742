import Verif.Spec.Callback
import Verif.Props.ParserOnError
import Verif.Props.Types
/-!
# Chains with effectful callbacks, by way of chains with pure ones

For the data the user's program has when an alternative is tried, its callback is a function of the values: `freeze`.
-/
namespace Ssp
open Spec

namespace Parser
variable {γ : Type}

/-- the callback as a function of the values, for given data -/
def CbAlt.freeze (a : CbAlt γ) (g : γ) : Alt := ⟨a.reqs, a.fn.map fun f vs => (f.invoke a.type vs g).1⟩

theorem handleError_quiet {c : Cfg} (hth : c.mode ≠ .throw) {m : Bytes} (hne : m ≠ []) (s : Parser) :
    ∃ s', handleError c m s = .ok () s' ∧ s'.valid c = false := by
  unfold handleError
  cases hm : c.mode with
  | throw => exact absurd hm hth
  | string => exact ⟨_, rfl, by simp [Parser.valid, ErrSt.valid, ErrSt.set, hm, hne]⟩
  | bool => exact ⟨_, rfl, by simp [Parser.valid, ErrSt.valid, ErrSt.set, hm]⟩

/-- what is done with the values when they were converted -/
def finish (x : Ctx) (a : Alt) (v : List Val) : M Parser (Option (List Val) × Bool) := do
  let s ← M.get
  if s.valid x.cfg then
    let called ← tryInvoke x v a.fn
    let s ← M.get
    pure (if s.valid x.cfg then some v else none, called)
  else pure (none, false)

def finishC (x : Ctx) (a : CbAlt γ) (v : List Val) (g : γ) : M Parser (Option (List Val) × γ) := do
  let s ← M.get
  if s.valid x.cfg then
    let r ← tryInvokeC x a v g
    let s ← M.get
    pure (if s.valid x.cfg then some r.1 else none, r.2)
  else pure (none, g)

/-- what comes of the values `v` -/
def CbAlt.Ends (a : CbAlt γ) (v : List Val) (g : γ) (o : Option (List Val)) (g' : γ) : Prop :=
  match a.fn with
  | none => o = some v ∧ g' = g
  | some f => g' = (f.invoke a.type v g).2.2 ∧
      o = if (f.invoke a.type v g).1 = some false then none else some (f.invoke a.type v g).2.1

theorem finish_both {x : Ctx} (hth : x.cfg.mode ≠ .throw) (a : CbAlt γ) (v : List Val) (g : γ) (s : Parser) :
    ∃ o c o' g' s', finish x (a.freeze g) v s = .ok (o, c) s' ∧ finishC x a v g s = .ok (o', g') s' ∧
      o.isSome = o'.isSome ∧ (s.valid x.cfg = false → o' = none ∧ g' = g) ∧ (s.valid x.cfg = true → a.Ends v g o' g') := by
  unfold finish finishC
  rw [M.get_bind, M.get_bind]
  cases hv : s.valid x.cfg with
  | false =>
    rw [if_neg (by simp), if_neg (by simp)]
    exact ⟨_, _, _, _, s, rfl, rfl, rfl, fun _ => ⟨rfl, rfl⟩, fun h => by cases h⟩
  | true =>
    rw [if_pos rfl, if_pos rfl]
    unfold CbAlt.freeze CbAlt.Ends tryInvokeC
    cases hf : a.fn with
    | none =>
      refine ⟨_, _, _, _, s, rfl, rfl, ?_, (fun h => by cases h), fun _ => ?_⟩
      · simp [hv]
      · rw [hv]; exact ⟨rfl, rfl⟩
    | some f =>
      show ∃ o c o' g' s', (tryInvoke x v (some _) >>= _) s = _ ∧ _
      unfold tryInvoke
      dsimp only
      cases hr : (f.invoke a.type v g).1 with
      | none =>
        refine ⟨_, _, _, _, s, rfl, rfl, ?_, (fun h => by cases h), fun _ => ⟨rfl, ?_⟩⟩
        · simp [hv]
        · simp [hv]
      | some b =>
        cases b with
        | true =>
          refine ⟨_, _, _, _, s, rfl, rfl, ?_, (fun h => by cases h), fun _ => ⟨rfl, ?_⟩⟩
          · simp [hv]
          · simp [hv]
        | false =>
          obtain ⟨s', h1, h2⟩ := handleError_quiet hth (m := x.fileName ++ bs ": failed check") (by intro h; have := (List.append_eq_nil_iff.mp h).2; revert this; decide) s
          refine ⟨none, true, none, (f.invoke a.type v g).2.2, s', ?_, ?_, rfl, (fun h => by cases h), fun _ => ⟨rfl, by simp⟩⟩
          · dsimp only
            rw [M.bind_of_ok (a := true) (s' := s') (by rw [M.bind_of_ok h1]; rfl)]
            show Res.ok _ s' = _
            rw [h2]; rfl
          · dsimp only
            rw [M.bind_of_ok (a := (f.invoke a.type v g).2) (s' := s') (by rw [M.bind_of_ok h1]; rfl)]
            show Res.ok _ s' = _
            rw [h2]; rfl

theorem finish_none (x : Ctx) (rs : List Req) (v : List Val) (s : Parser) :
    finish x ⟨rs, none⟩ v s = .ok (if s.valid x.cfg then some v else none, false) s := by
  unfold finish
  rw [M.get_bind]
  cases hv : s.valid x.cfg with
  | false => rfl
  | true => show Res.ok (if s.valid x.cfg = true then some v else none, false) s = _; rw [hv]

theorem tryNext_finish (x : Ctx) (a : Alt) : tryNext x a = (getNext x a.reqs >>= finish x a) := rfl
theorem tryNextC_finish (x : Ctx) (a : CbAlt γ) (g : γ) : tryNextC x a g = (getNext x a.reqs >>= fun v => finishC x a v g) := rfl

theorem orElse_of_valid {x : Ctx} {a : Alt} {s : Parser} (h : s.valid x.cfg = true) : orElse x a s = .ok (none, false) s := by
  unfold orElse; rw [M.get_bind, if_pos h]; rfl
theorem orElseC_of_valid {x : Ctx} {a : CbAlt γ} {g : γ} {s : Parser} (h : s.valid x.cfg = true) : orElseC x a g s = .ok (none, g) s := by
  unfold orElseC; rw [M.get_bind, if_pos h]; rfl
theorem orElse_of_invalid {x : Ctx} {a : Alt} {s : Parser} (h : s.valid x.cfg = false) :
    orElse x a s = (trySame x a.reqs >>= finish x a) s := by
  unfold orElse; rw [M.get_bind, if_neg (by simp [h])]; rfl
theorem orElseC_of_invalid {x : Ctx} {a : CbAlt γ} {g : γ} {s : Parser} (h : s.valid x.cfg = false) :
    orElseC x a g s = (trySame x a.reqs >>= fun v => finishC x a v g) s := by
  unfold orElseC; rw [M.get_bind, if_neg (by simp [h])]; rfl

theorem orElses_append (x : Ctx) (b : Alt) : ∀ (as : List Alt) (s : Parser),
    orElses x (as ++ [b]) s = (orElses x as >>= fun r => orElse x b >>= fun o => pure (r ++ [o])) s
  | [], s => by
    show (orElse x b >>= fun r => orElses x [] >>= fun rest => pure (r :: rest)) s = _
    show _ = (orElse x b >>= fun o => pure ([] ++ [o])) s
    cases h : orElse x b s with
    | ok r s1 => rw [M.bind_of_ok h, M.bind_of_ok h]; rfl
    | exc m s1 => simp only [Bind.bind, M.bind, h]
    | ub => simp only [Bind.bind, M.bind, h]
    | nofuel => simp only [Bind.bind, M.bind, h]
  | a :: as, s => by
    simp only [List.cons_append, orElses, Bind.bind, M.bind]
    cases h : orElse x a s with
    | exc m s1 => rfl
    | ub => rfl
    | nofuel => rfl
    | ok r s1 =>
      have ih := orElses_append x b as s1
      simp only [Bind.bind, M.bind] at ih
      dsimp only
      rw [ih]
      cases h2 : orElses x as s1 with
      | ok rs s2 => dsimp only; cases h3 : orElse x b s2 <;> simp only [M.pure_apply, h3, List.cons_append]
      | exc m s2 => rfl
      | ub => rfl
      | nofuel => rfl

/-- one more alternative -/
theorem tryChain_snoc {x : Ctx} {a : Alt} {as : List Alt} {b : Alt} {s s1 : Parser} {outs : List (Option (List Val) × Bool)}
    (h : tryChain x a as s = .ok outs s1) :
    tryChain x a (as ++ [b]) s = (orElse x b >>= fun o => pure (outs ++ [o])) s1 := by
  unfold tryChain at h ⊢
  obtain ⟨r, s0, h1, h⟩ := Conv.ok_bind_ok h
  obtain ⟨rest, s2, h2, h⟩ := Conv.ok_bind_ok h
  cases h
  rw [M.bind_of_ok h1]
  have := orElses_append x b as s0
  rw [M.bind_of_ok h2] at this
  cases h3 : orElse x b s1 with
  | ok o s3 =>
    rw [M.bind_of_ok h3] at this ⊢
    rw [M.bind_of_ok this]
    rfl
  | exc m s3 => simp only [Bind.bind, M.bind, h3] at this ⊢; simp only [this]
  | ub => simp only [Bind.bind, M.bind, h3] at this ⊢; simp only [this]
  | nofuel => simp only [Bind.bind, M.bind, h3] at this ⊢; simp only [this]

/-- the alternative takes a row that converts as `C` tells -/
def Alt.Takes (C : List Req → List Val → Prop) (b : Alt) (vs : List Val) : Prop :=
  C b.reqs vs ∧ ∀ f, b.fn = some f → f vs ≠ some false

/-- all chains of pure alternatives do at `s` what they should, and then `Post` holds -/
def Chains (x : Ctx) (s : Parser) (C : List Req → List Val → Prop) (Post : Parser → Prop) : Prop :=
  ∀ a as, (∀ b ∈ a :: as, b.reqs ≠ []) → ∃ outs s', tryChain x a as s = .ok outs s' ∧ outs.length = as.length + 1 ∧
    (∀ (i : Nat) (b : Alt), (a :: as)[i]? = some b → ∃ out, outs[i]? = some out ∧
      ∀ vs, out.1 = some vs ↔ b.Takes C vs ∧
        ∀ (j : Nat) (b' : Alt), j < i → (a :: as)[j]? = some b' → ∀ vs', ¬ b'.Takes C vs') ∧
    (s'.valid x.cfg = true ↔ ∃ out ∈ outs, out.1.isSome = true) ∧ Post s'

section
variable {x : Ctx} {s : Parser} {C : List Req → List Val → Prop} {Post : Parser → Prop}

theorem Chains.valid_iff (H : Chains x s C Post) {a : Alt} {as : List Alt} (hne : ∀ b ∈ a :: as, b.reqs ≠ [])
    {outs : List (Option (List Val) × Bool)} {s1 : Parser} (h : tryChain x a as s = .ok outs s1) :
    s1.valid x.cfg = false ↔ ∀ b ∈ a :: as, ∀ vs, ¬ b.Takes C vs := by
  obtain ⟨outs', s', h1, hlen, h2, h3, _⟩ := H a as hne
  rw [h] at h1
  cases h1
  rw [← Bool.not_eq_true, h3]
  constructor
  · intro hno b hb
    obtain ⟨i, hi⟩ := List.mem_iff_getElem?.mp hb
    have key : ∀ (i : Nat) (b : Alt), (a :: as)[i]? = some b → ∀ vs, ¬ b.Takes C vs := by
      intro i
      induction i using Nat.strongRecOn with
      | ind i ih =>
        intro b hi vs hT
        obtain ⟨out, ho, hiff⟩ := h2 i b hi
        have := (hiff vs).mpr ⟨hT, fun j b' hj hb' vs' => ih j hj b' hb' vs'⟩
        exact hno ⟨out, List.mem_of_getElem? ho, by rw [this]; rfl⟩
    exact key i b hi
  · rintro hall ⟨out, ho, hs⟩
    obtain ⟨i, hi⟩ := List.mem_iff_getElem?.mp ho
    have hlt : i < (a :: as).length := by
      have : i < outs.length := by
        false_or_by_contra
        rw [List.getElem?_eq_none (by omega)] at hi; cases hi
      rw [hlen] at this; exact this
    obtain ⟨out', ho', hiff⟩ := h2 i _ (List.getElem?_eq_getElem hlt)
    rw [hi] at ho'
    cases ho'
    obtain ⟨vs, hvs⟩ := Option.isSome_iff_exists.mp hs
    exact hall _ (List.getElem_mem hlt) vs ((hiff vs).mp hvs).1

/-- the conversion behind a prefix of which no alternative took the row -/
theorem Chains.same (H : Chains x s C Post) {a : Alt} {as : List Alt} (hne : ∀ b ∈ a :: as, b.reqs ≠ [])
    {outs : List (Option (List Val) × Bool)} {s1 : Parser} (h : tryChain x a as s = .ok outs s1)
    (hv : s1.valid x.cfg = false) {rs : List Req} (hrs : rs ≠ []) :
    ∃ v s2, trySame x rs s1 = .ok v s2 ∧ (∀ vs, C rs vs ↔ s2.valid x.cfg = true ∧ v = vs) := by
  obtain ⟨outs', s', h1, hlen, h2, _, _⟩ := H a (as ++ [⟨rs, none⟩]) (by
    intro b hb
    rcases List.mem_append.mp (show b ∈ (a :: as) ++ [⟨rs, none⟩] by simpa using hb) with hb | hb
    · exact hne b hb
    · rw [List.mem_singleton.mp hb]; exact hrs)
  rw [tryChain_snoc h] at h1
  obtain ⟨o, s3, h3, h4⟩ := Conv.ok_bind_ok h1
  cases h4
  rw [orElse_of_invalid hv] at h3
  obtain ⟨v, s2, h5, h6⟩ := Conv.ok_bind_ok h3
  have h6 : finish x ⟨rs, none⟩ v s2 = .ok o s' := h6
  rw [finish_none] at h6
  cases h6
  refine ⟨v, _, h5, ?_⟩
  have hno := (H.valid_iff hne h).mp hv
  obtain ⟨outs2, s4, g1, g2, _⟩ := H a as hne
  rw [h] at g1
  cases g1
  obtain ⟨out, ho, hiff⟩ := h2 (as.length + 1) ⟨rs, none⟩ (by simp)
  rw [List.getElem?_append_right (by omega), g2] at ho
  simp at ho
  subst ho
  intro vs
  have := hiff vs
  constructor
  · intro hC
    have := this.mpr ⟨⟨hC, by simp⟩, fun j b' hj hb' vs' => hno b' (by
      have hb' : ((a :: as) ++ [⟨rs, none⟩])[j]? = some b' := hb'
      rw [List.getElem?_append_left (by simpa using hj)] at hb'
      exact List.mem_of_getElem? hb') vs'⟩
    by_cases hvv : s'.valid x.cfg = true
    · rw [if_pos hvv] at this; exact ⟨hvv, by simpa using this⟩
    · rw [if_neg hvv] at this; cases this
  · rintro ⟨hvv, rfl⟩
    rw [if_pos hvv] at this
    exact (this.mp rfl).1.1

/-- the conversion at the beginning -/
theorem Chains.next (H : Chains x s C Post) {rs : List Req} (hrs : rs ≠ []) :
    ∃ v s2, getNext x rs s = .ok v s2 ∧ (∀ vs, C rs vs ↔ s2.valid x.cfg = true ∧ v = vs) := by
  obtain ⟨outs', s', h1, hlen, h2, _, _⟩ := H ⟨rs, none⟩ [] (by intro b hb; rw [List.mem_singleton.mp hb]; exact hrs)
  unfold tryChain at h1
  obtain ⟨o, s3, h3, h4⟩ := Conv.ok_bind_ok h1
  cases h4
  rw [tryNext_finish] at h3
  obtain ⟨v, s2, h5, h6⟩ := Conv.ok_bind_ok h3
  rw [finish_none] at h6
  cases h6
  refine ⟨v, _, h5, fun vs => ?_⟩
  obtain ⟨out, ho, hiff⟩ := h2 0 ⟨rs, none⟩ rfl
  cases ho
  have := hiff vs
  constructor
  · intro hC
    have := this.mpr ⟨⟨hC, by simp⟩, fun j b' hj => by omega⟩
    by_cases hvv : s'.valid x.cfg = true
    · rw [if_pos hvv] at this; exact ⟨hvv, by simpa using this⟩
    · rw [if_neg hvv] at this; cases this
  · rintro ⟨hvv, rfl⟩
    rw [if_pos hvv] at this
    exact (this.mp rfl).1.1

theorem Ends.called {a : CbAlt γ} (f : Callable γ) {t : Tp Req} (ht : a.type = t) (v : List Val) (g : γ) :
    Called f t v g (f.invoke a.type v g).1 (f.invoke a.type v g).2.1 (f.invoke a.type v g).2.2 := by
  subst ht
  unfold Callable.invoke Callable.form
  cases h0 : f.takes [] with
  | true =>
    rw [if_pos rfl]
    exact .nothing h0 rfl
  | false =>
    rw [if_neg (by simp)]
    cases h1 : f.takes [a.type] with
    | true =>
      rw [if_pos rfl]
      exact .whole h0 h1 rfl
    | false =>
      rw [if_neg (by simp)]
      exact .spread h0 h1 rfl

theorem CbAlt.type_eq {a : CbAlt γ} {t : Tp Req} (h : resultType (valueTypes a.reqs) = some t) : a.type = t := by
  unfold CbAlt.type
  have := Tp.C57_result_type a.reqs
  unfold Tp.bases at this
  rw [this, h]
  rfl

/-- what comes of an alternative, in terms of the specification -/
theorem of_ends {a : CbAlt γ} {t : Tp Req} (ht : resultType (valueTypes a.reqs) = some t) {ks : List (CbLink γ)} {v : List Val}
    (hC : C a.reqs v) {g g1 g' : γ} {o : Option (List Val)} {os : List (Option (List Val))} (he : a.Ends v g o g1)
    (hr : Offered C o.isSome ks g1 os g') : Offered C false (.orElse a :: ks) g (o :: os) g' := by
  unfold CbAlt.Ends at he
  cases hf : a.fn with
  | none =>
    rw [hf] at he
    obtain ⟨rfl, rfl⟩ := he
    exact .plain hC hf hr
  | some f =>
    rw [hf] at he
    dsimp only at he
    obtain ⟨rfl, ho⟩ := he
    have hcalled := Ends.called f (CbAlt.type_eq ht) v g
    by_cases hfalse : (f.invoke a.type v g).1 = some false
    · rw [if_pos hfalse] at ho
      subst ho
      rw [hfalse] at hcalled
      exact .refused hC hf ht hcalled hr
    · rw [if_neg hfalse] at ho
      subst ho
      exact .taken hC hf ht hcalled hfalse hr

theorem reqs_ne {rs : List Req} (h : valueTypes rs ≠ []) : rs ≠ [] := by rintro rfl; exact h rfl

theorem resultType_some {ts : List Ty} (h : ts ≠ []) : ∃ t, resultType ts = some t := by
  match ts with
  | [] => exact absurd rfl h
  | [t] => exact ⟨_, rfl⟩
  | t :: t' :: ts => exact ⟨_, rfl⟩

theorem Chains.links (H : Chains x s C Post) (hth : x.cfg.mode ≠ .throw) : ∀ (ks : List (CbLink γ)) (g : γ) {a : Alt} {as : List Alt},
    (∀ b ∈ a :: as, b.reqs ≠ []) → ∀ {outs : List (Option (List Val) × Bool)} {s1 : Parser}, tryChain x a as s = .ok outs s1 →
    (∀ k ∈ ks, Asks k) →
    ∃ os g' s', linksC x ks g s1 = .ok (os, g') s' ∧ Offered C (s1.valid x.cfg) ks g os g' ∧
      (s'.valid x.cfg = true ↔ s1.valid x.cfg = true ∨ ∃ o ∈ os, o.isSome = true) ∧ Post s' := by
  intro ks
  induction ks with
  | nil =>
    intro g a as hne outs s1 h _
    refine ⟨[], g, s1, rfl, .nil, by simp, ?_⟩
    obtain ⟨outs', s', h1, _, _, _, h5⟩ := H a as hne
    rw [h] at h1
    cases h1
    exact h5
  | cons k ks ih =>
    intro g a as hne outs s1 h hks
    have hks' : ∀ k ∈ ks, Asks k := fun k hk => hks k (by simp [hk])
    cases k with
    | onError f =>
      show ∃ os g' s', (onErrorC x f g >>= fun g' => linksC x ks g') s1 = _ ∧ _
      cases hv : s1.valid x.cfg with
      | true =>
        obtain ⟨os, g', s', h1, h2, h3, h4⟩ := ih g hne h hks'
        rw [hv] at h2 h3
        exact ⟨os, g', s', by rw [M.bind_of_ok (a := g) (s' := s1) (by unfold onErrorC; rw [if_pos hv])]; exact h1, .fine h2, h3, h4⟩
      | false =>
        cases ht : f.takes [] with
        | true =>
          obtain ⟨os, g', s', h1, h2, h3, h4⟩ := ih (f.call [] g).2.2 hne h hks'
          rw [hv] at h2 h3
          refine ⟨os, g', s', ?_, .failed [] (by rw [if_pos ht]; exact h2), h3, h4⟩
          rw [M.bind_of_ok (a := (f.call [] g).2.2) (s' := s1) (by unfold onErrorC; rw [if_neg (by simp [hv]), if_pos ht])]
          exact h1
        | false =>
          obtain ⟨os, g', s', h1, h2, h3, h4⟩ := ih (f.call [.val (.str s1.err.msg)] g).2.2 hne h hks'
          rw [hv] at h2 h3
          refine ⟨os, g', s', ?_, .failed s1.err.msg (by rw [if_neg (by simp [ht])]; exact h2), h3, h4⟩
          rw [M.bind_of_ok (a := (f.call [.val (.str s1.err.msg)] g).2.2) (s' := s1)
            (by unfold onErrorC; rw [if_neg (by simp [hv]), if_neg (by simp [ht])])]
          exact h1
    | orElse b =>
      have hvt : valueTypes b.reqs ≠ [] := hks (.orElse b) (by simp)
      obtain ⟨t, ht⟩ := resultType_some hvt
      have hne' : ∀ b' ∈ a :: (as ++ [b.freeze g]), b'.reqs ≠ [] := by
        intro b' hb
        rcases List.mem_append.mp (show b' ∈ (a :: as) ++ [b.freeze g] by simpa using hb) with hb | hb
        · exact hne b' hb
        · rw [List.mem_singleton.mp hb]; exact reqs_ne hvt
      show ∃ os g' s', (orElseC x b g >>= fun r => linksC x ks r.2 >>= fun rest => pure (r.1 :: rest.1, rest.2)) s1 = _ ∧ _
      cases hv : s1.valid x.cfg with
      | true =>
        have hsn : tryChain x a (as ++ [b.freeze g]) s = .ok (outs ++ [(none, false)]) s1 := by
          rw [tryChain_snoc h, M.bind_of_ok (orElse_of_valid hv)]; rfl
        obtain ⟨os, g', s', h1, h2, h3, h4⟩ := ih g hne' hsn hks'
        rw [hv] at h2 h3
        refine ⟨none :: os, g', s', ?_, .late h2, ?_, h4⟩
        · rw [M.bind_of_ok (orElseC_of_valid hv), M.bind_of_ok h1]; rfl
        · rw [h3]; simp
      | false =>
        obtain ⟨v, s2, h1, h2⟩ := H.same hne h hv (reqs_ne hvt)
        obtain ⟨o, c, o', g1, s3, h3, h4, h5, h6, h7⟩ := finish_both hth b v g s2
        have hor : orElse x (b.freeze g) s1 = .ok (o, c) s3 := by
          rw [orElse_of_invalid hv, M.bind_of_ok (show trySame x (b.freeze g).reqs s1 = _ from h1)]; exact h3
        have horC : orElseC x b g s1 = .ok (o', g1) s3 := by
          rw [orElseC_of_invalid hv, M.bind_of_ok h1]; exact h4
        have hsn : tryChain x a (as ++ [b.freeze g]) s = .ok (outs ++ [(o, c)]) s3 := by
          rw [tryChain_snoc h, M.bind_of_ok hor]; rfl
        have hv3 : s3.valid x.cfg = o'.isSome := by
          have := orElse_valid_iff hor
          rw [← h5]
          rw [hv] at this
          cases ho : o.isSome <;> simp [ho] at this ⊢ <;> exact this
        obtain ⟨os, g', s', k1, k2, k3, k4⟩ := ih g1 hne' hsn hks'
        rw [hv3] at k2 k3
        refine ⟨o' :: os, g', s', by rw [M.bind_of_ok horC, M.bind_of_ok k1]; rfl, ?_, by rw [k3]; simp, k4⟩
        cases hv2 : s2.valid x.cfg with
        | false =>
          obtain ⟨rfl, rfl⟩ := h6 hv2
          exact .unfit (fun vs hC => by have := ((h2 vs).mp hC).1; rw [hv2] at this; cases this) k2
        | true => exact of_ends ht ((h2 v).mpr ⟨hv2, rfl⟩) (h7 hv2) k2

theorem Chains.all (H : Chains x s C Post) (hth : x.cfg.mode ≠ .throw) (a : CbAlt γ) (ks : List (CbLink γ)) (g : γ)
    (hks : ∀ k ∈ CbLink.orElse a :: ks, Asks k) :
    ∃ os g' s', tryLinksC x a ks g s = .ok (os, g') s' ∧ Offered C false (.orElse a :: ks) g os g' ∧
      (s'.valid x.cfg = true ↔ ∃ o ∈ os, o.isSome = true) ∧ Post s' := by
  have hvt : valueTypes a.reqs ≠ [] := hks (.orElse a) (by simp)
  obtain ⟨t, ht⟩ := resultType_some hvt
  obtain ⟨v, s2, h1, h2⟩ := H.next (reqs_ne hvt)
  obtain ⟨o, c, o', g1, s3, h3, h4, h5, h6, h7⟩ := finish_both hth a v g s2
  have htn : tryNext x (a.freeze g) s = .ok (o, c) s3 := by
    rw [tryNext_finish, M.bind_of_ok (show getNext x (a.freeze g).reqs s = _ from h1)]; exact h3
  have htc : tryNextC x a g s = .ok (o', g1) s3 := by rw [tryNextC_finish, M.bind_of_ok h1]; exact h4
  have hch : tryChain x (a.freeze g) [] s = .ok [(o, c)] s3 := by
    unfold tryChain; rw [M.bind_of_ok htn]; rfl
  have hv3 : s3.valid x.cfg = o'.isSome := by
    have := tryNext_valid_iff htn
    rw [← h5]
    cases ho : o.isSome <;> simp [ho] at this ⊢ <;> exact this
  obtain ⟨os, g', s', k1, k2, k3, k4⟩ := H.links hth ks g1 (a := a.freeze g) (as := [])
    (by intro b hb; rw [List.mem_singleton.mp hb]; exact reqs_ne hvt) hch (fun k hk => hks k (by simp [hk]))
  rw [hv3] at k2 k3
  refine ⟨o' :: os, g', s', ?_, ?_, by rw [k3]; simp, k4⟩
  · unfold tryLinksC; rw [M.bind_of_ok htc, M.bind_of_ok k1]; rfl
  · cases hv2 : s2.valid x.cfg with
    | false =>
      obtain ⟨rfl, rfl⟩ := h6 hv2
      exact .unfit (fun vs hC => by have := ((h2 vs).mp hC).1; rw [hv2] at this; cases this) k2
    | true => exact of_ends ht ((h2 v).mpr ⟨hv2, rfl⟩) (h7 hv2) k2

end
end Parser
end Ssp
