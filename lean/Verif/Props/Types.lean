import Verif.Spec.Types
/-!
# Type functions (C57)

`bases as` is a pack of ordinary types, i.e. not `std::tuple<...>` or `std::false_type`.
-/
namespace Ssp
open Spec

namespace Tp
variable {α : Type}

/-- a pack of ordinary types -/
def bases (as : List α) : List (Tp α) := as.map .base

theorem applyTrait_flat {f : Tp α → Tp α} : ∀ {ts : List (Tp α)}, ts ≠ [] → (∀ t ∈ ts, ∀ us, f t ≠ .tup us) →
    applyTrait f (.tup ts) = some (.tup (ts.map f))
  | [], h, _ => absurd rfl h
  | [t], _, _ => by simp [applyTrait]
  | t :: t' :: ts, _, h => by
    rw [applyTrait, applyTrait_flat (by simp) fun u hu => h u (List.mem_cons_of_mem _ hu)]
    have := h t (by simp)
    cases hf : f t with
    | tup us => exact absurd hf (this us)
    | base a => simp [cat, hf]
    | falseType => simp [cat, hf]

def notFalse : Tp α → Bool
  | .falseType => false
  | _ => true

theorem removeFalse_flat : ∀ {ts : List (Tp α)}, ts ≠ [] → (∀ t ∈ ts, ∀ us, t ≠ .tup us) →
    removeFalse ts = some (.tup (ts.filter notFalse))
  | [], h, _ => absurd rfl h
  | [t], _, h => by
    cases t with
    | tup us => exact absurd rfl (h _ (by simp) us)
    | base a => simp [removeFalse]; rfl
    | falseType => simp [removeFalse, notFalse]
  | t :: t' :: ts, _, h => by
    have ih := removeFalse_flat (ts := t' :: ts) (by simp) fun u hu => h u (List.mem_cons_of_mem _ hu)
    cases t with
    | tup us => exact absurd rfl (h _ (by simp) us)
    | base a => rw [removeFalse, ih]; · simp [cat]; rfl
                · intro h; cases h
    | falseType => rw [removeFalse, ih]; simp [notFalse]

theorem removeFalse_tup : ∀ {ts : List (Tp α)}, ts ≠ [] → ts ≠ [.falseType] → (∀ t ∈ ts, ∀ us, t ≠ .tup us) →
    removeFalse [.tup ts] = some (.tup (ts.filter notFalse))
  | [], h, _, _ => absurd rfl h
  | [t], _, h1, h => by
    cases t with
    | tup us => exact absurd rfl (h _ (by simp) us)
    | base a => simp [removeFalse]; rfl
    | falseType => exact absurd rfl h1
  | t :: t' :: ts, _, _, h => by
    have ih := removeFalse_flat (ts := t' :: ts) (by simp) fun u hu => h u (List.mem_cons_of_mem _ hu)
    cases t with
    | tup us => exact absurd rfl (h _ (by simp) us)
    | base a => rw [removeFalse, ih]; · simp [cat]; rfl
                · intro h; cases h
    | falseType => rw [removeFalse, ih]; simp [notFalse]

theorem optional_flat {p : Tp α → Bool} {t : Tp α} (h : ∀ us, t ≠ .tup us) : ∀ us, optional p t ≠ .tup us := by
  intro us
  unfold optional
  by_cases hp : p t = true
  · rw [if_pos hp]; exact h us
  · rw [if_neg hp]; intro h; cases h

theorem optional_filter {p : Tp α → Bool} : ∀ {as : List α}, ((bases as).map (optional p)).filter notFalse = bases (as.filter fun a => p (.base a))
  | [] => rfl
  | a :: as => by
    have ih := optional_filter (p := p) (as := as)
    unfold bases at ih ⊢
    by_cases hp : p (.base a) = true
    · rw [List.map_cons, List.map_cons, List.filter_cons, List.filter_cons, if_pos hp, List.map_cons, ← ih, optional, if_pos hp]; rfl
    · rw [List.map_cons, List.map_cons, List.filter_cons, List.filter_cons, if_neg hp, ← ih, optional, if_neg hp]; rfl

theorem bases_flat {as : List α} : ∀ t ∈ bases as, ∀ us, t ≠ .tup us := by
  intro t ht us h
  subst h
  obtain ⟨a, _, ha⟩ := List.mem_map.mp ht
  cases ha

theorem filterIf_eq (p : Tp α → Bool) (as : List α) :
    filterIf p (bases as) = (applyOptional p (.tup (bases as))).bind fun t => removeFalse [t] := by
  unfold filterIf
  cases as with
  | nil => rfl
  | cons a as => cases as <;> rfl

theorem filterIf_tup (p : Tp α → Bool) (as : List α) : filterIf p [.tup (bases as)] = filterIf p (bases as) := by
  rw [filterIf_eq]; rfl

/-- C57: `filter_if_t` keeps exactly the types for which the trait holds, in order - for packs of any length.  The only
exception: one type for which it does not hold (`C57_filter_single`). -/
theorem C57_filter {p : Tp α → Bool} {as : List α} (hne : as ≠ []) (h1 : ∀ a, as = [a] → p (.base a) = true) :
    filterIf p (bases as) = some (.tup (bases (as.filter fun a => p (.base a)))) := by
  have hb : bases as ≠ [] := by simpa [bases] using hne
  rw [filterIf_eq, applyOptional, applyTrait_flat hb fun t ht us => optional_flat (bases_flat t ht) us, Option.bind_some,
    removeFalse_tup (by simpa using hb), optional_filter]
  · intro h
    cases as with
    | nil => exact hne rfl
    | cons a as =>
      cases as with
      | nil =>
        have := h1 a rfl
        simp [bases, optional, this] at h
      | cons b as => simp [bases] at h
  · intro t ht us
    obtain ⟨u, hu, rfl⟩ := List.mem_map.mp ht
    exact optional_flat (bases_flat u hu) us

theorem C57_filter_single {p : Tp α → Bool} {a : α} (h : p (.base a) = false) : filterIf p (bases [a]) = none := by
  rw [filterIf_eq]; simp [applyOptional, applyTrait, bases, optional, h, removeFalse]

theorem C57_filter_not {p : Tp α → Bool} {as : List α} (hne : as ≠ []) (h1 : ∀ a, as = [a] → p (.base a) = false) :
    filterNot p (bases as) = some (.tup (bases (as.filter fun a => !p (.base a)))) :=
  C57_filter (p := fun t => !p t) hne fun a h => by simp [h1 a h]

/-- C57: `count_v` and `count_not_v` count. -/
theorem C57_count (p : Tp α → Bool) (as : List α) : count p (bases as) = some (as.countP fun a => p (.base a)) ∧
    countNot p (bases as) = some (as.countP fun a => !p (.base a)) := by
  match as with
  | [] => exact ⟨rfl, rfl⟩
  | [a] => cases h : p (.base a) <;> simp [bases, count, countNot, h]
  | a :: b :: as =>
    constructor
    · show (filterIf p (bases (a :: b :: as))).bind size = _
      rw [C57_filter (by simp) (by intro _ h; cases h)]
      simp only [Option.bind_some, size, bases, List.length_map, List.countP_eq_length_filter]
    · show (filterNot p (bases (a :: b :: as))).bind size = _
      rw [C57_filter_not (by simp) (by intro _ h; cases h)]
      simp only [Option.bind_some, size, bases, List.length_map, List.countP_eq_length_filter]

theorem unpack_bases (as : List α) : unpack (bases as) = bases as := by
  cases as with
  | nil => rfl
  | cons a as => cases as <;> rfl

/-- C57: `all_of_v`, `any_of_v` and `none_of_v` of a pack, and of a tuple. -/
theorem C57_quantifiers (p : Tp α → Bool) (as : List α) :
    allOf p (bases as) = some (as.all fun a => p (.base a)) ∧
    (as ≠ [] → anyOf p (bases as) = some (as.any fun a => p (.base a))) ∧
    noneOf p (bases as) = some (!as.any fun a => p (.base a)) ∧
    allOf p [.tup (bases as)] = allOf p (bases as) ∧ anyOf p [.tup (bases as)] = anyOf p (bases as) ∧
    noneOf p [.tup (bases as)] = noneOf p (bases as) := by
  have hu : unpack [.tup (bases as)] = unpack (bases as) := by rw [unpack_bases]; rfl
  refine ⟨?_, ?_, ?_, ?_, ?_, ?_⟩
  · rw [allOf, unpack_bases, (C57_count p as).1, Option.map_some]
    congr 1
    rw [Bool.eq_iff_iff]
    simp [bases, List.countP_eq_length]
  · intro hne
    rw [anyOf, unpack_bases, (C57_count p as).1, if_neg (by simpa [bases] using hne), Option.map_some]
    congr 1
    rw [Bool.eq_iff_iff]
    simp [List.countP_pos_iff]
  · rw [noneOf, unpack_bases, (C57_count p as).1, Option.map_some]
    congr 1
    rw [Bool.eq_iff_iff]
    simp [List.countP_eq_zero]
  · unfold allOf; rw [hu]
  · unfold anyOf; rw [hu]
  · unfold noneOf; rw [hu]

/-- C57: `left_of_t`, `right_of_t` and the functions made of them take the pack apart; `left_of_t` up to 128 types. -/
theorem C57_left {n : Nat} : ∀ {as : List α}, n < as.length → n < 128 → leftOf n (bases as) = some (.tup (bases (as.take (n + 1)))) := by
  induction n with
  | zero => intro as h _; cases as with
    | nil => simp at h
    | cons a as => simp [bases, leftOf]
  | succ n ih =>
    intro as h h2
    cases as with
    | nil => simp at h
    | cons a as =>
      have := ih (as := as) (by simpa using h) (by omega)
      simp only [bases] at this
      simp [bases, leftOf, h2, this, cat]

theorem C57_right {n : Nat} : ∀ {as : List α}, n < as.length → rightOf n (bases as) = some (.tup (bases (as.drop n))) := by
  induction n with
  | zero => intro as h; cases as with
    | nil => simp at h
    | cons a as => simp [bases, rightOf]
  | succ n ih =>
    intro as h
    cases as with
    | nil => simp at h
    | cons a as => simpa [bases, rightOf] using ih (as := as) (by simpa using h)

theorem C57_first_last {as : List α} (h : 2 ≤ as.length) (h' : as.length < 130) :
    first (bases as) = some (.tup (bases as.dropLast)) ∧ last (bases as) = some (.tup (bases (as.drop (as.length - 1)))) ∧
    head (bases as) = some (.tup (bases (as.take 1))) ∧ tail (bases as) = some (.tup (bases as.tail)) := by
  have hl : (bases as).length = as.length := by simp [bases]
  refine ⟨?_, ?_, ?_, ?_⟩
  · rw [first, hl, if_neg (by omega), C57_left (by omega) (by omega), List.dropLast_eq_take]
    congr 4; omega
  · rw [last, hl, if_neg (by omega), C57_right (by omega)]
  · exact C57_left (by omega) (by omega)
  · rw [tail, C57_right (by omega), List.drop_one]

/-- C57: `last_t` and `head_t` need one type only, of any number; the others and `any_of_v` of nothing do not compile. -/
theorem C57_last {as : List α} :
    (as ≠ [] → last (bases as) = some (.tup (bases (as.drop (as.length - 1)))) ∧ head (bases as) = some (.tup (bases (as.take 1)))) ∧
    (as.length < 2 → first (bases as) = none ∧ tail (bases as) = none) ∧
    last (bases ([] : List α)) = none ∧ head (bases ([] : List α)) = none ∧
    ∀ p : Tp α → Bool, anyOf p (bases ([] : List α)) = none ∧ anyOf p [.tup (bases ([] : List α))] = none := by
  have hl : (bases as).length = as.length := by simp [bases]
  refine ⟨fun h => ?_, fun h => ?_, rfl, rfl, fun p => ⟨rfl, rfl⟩⟩
  · have h0 : 0 < as.length := List.length_pos_iff.mpr h
    exact ⟨by rw [last, hl, if_neg (by omega), C57_right (by omega)], C57_left h0 (by omega)⟩
  · refine ⟨by rw [first, hl, if_pos h], ?_⟩
    cases as with
    | nil => rfl
    | cons a as => cases as with
      | nil => rfl
      | cons _ _ => simp at h; omega

/-! ## The type of a row -/

theorem filter_void (rs : List Req) : (rs.filter fun r => !isVoid (.base r)).map (fun r => noValidator (.base r)) =
    (valueTypes rs).map fun t => .base (.ty t) := by
  induction rs with
  | nil => rfl
  | cons r rs ih =>
    rw [List.filter_cons]
    cases r with
    | void => exact ih
    | ty t => exact congrArg (Tp.base (.ty t) :: ·) ih
    | valid t p m => exact congrArg (Tp.base (.ty t) :: ·) ih

theorem all_void (rs : List Req) : (rs.all fun r => isVoid (.base r)) = true ↔ valueTypes rs = [] := by
  induction rs with
  | nil => simp [valueTypes]
  | cons r rs ih => cases r <;> simp [isVoid, valueTypes, ← ih]

theorem noVoidValidatorTup_eq (rs : List Req) :
    noVoidValidatorTup (bases rs) = (filterNot isVoid (bases rs)).bind fun t => noValidatorTup [t] := by
  unfold noVoidValidatorTup
  cases rs with
  | nil => rfl
  | cons r rs => cases rs <;> rfl

/-- C57: the type of what `convert`, `get_next` and the optionals of `try_next`/`or_else` return, for every list of requested
types. -/
theorem C57_result_type (rs : List Req) : rowType (bases rs) = resultType (valueTypes rs) := by
  unfold rowType
  rw [(C57_quantifiers isVoid rs).1]
  cases ha : rs.all fun r => isVoid (.base r) with
  | true => rw [(all_void rs).mp ha]; rfl
  | false =>
    show noVoidValidatorTup (bases rs) = _
    have hv : valueTypes rs ≠ [] := fun h => by rw [(all_void rs).mpr h] at ha; cases ha
    have hne : rs ≠ [] := by rintro rfl; exact hv rfl
    rw [noVoidValidatorTup_eq, C57_filter_not hne fun r h => by subst h; simpa using ha]
    have hf := filter_void rs
    generalize (rs.filter fun r => !isVoid (.base r)) = fs at hf
    have hfl : fs.length = (valueTypes rs).length := by simpa using congrArg List.length hf
    generalize valueTypes rs = ts at *
    show noValidatorTup [.tup (bases fs)] = _
    match fs, ts with
    | [], [] => exact absurd rfl hv
    | [f], [t] =>
      simp only [List.map_cons, List.map_nil, List.cons.injEq, and_true] at hf
      simp [bases, noValidatorTup, resultType, hf]
    | f :: g :: fs, t :: u :: ts =>
      have h1 : noValidatorTup [.tup (bases (f :: g :: fs))] = noValidatorTup (bases (f :: g :: fs)) := by
        rw [noValidatorTup]
        intro t h; simp [bases] at h
      have h2 : noValidatorTup (bases (f :: g :: fs)) = applyTrait noValidator (.tup (bases (f :: g :: fs))) := by
        rw [noValidatorTup]
        · intro t h; simp [bases] at h
        · intro ts h; simp [bases] at h
      rw [h1, h2, applyTrait_flat (by simp [bases])]
      · rw [resultType]
        · congr 2
          rw [← hf]
          simp [bases]
        · intro h; simp at h
        · intro _ h; simp at h
      · intro t ht us
        obtain ⟨r, _, rfl⟩ := List.mem_map.mp ht
        cases r <;> simp [noValidator]
    | [], _ :: _ => simp at hfl
    | [_], _ :: _ :: _ => simp at hfl
    | _ :: _, [] => simp at hfl
    | _ :: _ :: _, [_] => simp at hfl

/-- C57: asking for a tuple is asking for its types. -/
theorem C57_tuple_request (rs : List Req) : rowType [.tup (bases rs)] = rowType (bases rs) ∧
    convertPack [.tup (bases rs)] = convertPack (bases rs) := by
  constructor
  · unfold rowType
    rw [(C57_quantifiers isVoid rs).2.2.2.1]
    have : noVoidValidatorTup [.tup (bases rs)] = noVoidValidatorTup (bases rs) := by
      rw [noVoidValidatorTup_eq]; rfl
    rw [this]
  · cases rs with
    | nil => rfl
    | cons r rs => cases rs <;> rfl

theorem valueTypes_cons (r : Req) (rs : List Req) : valueTypes (r :: rs) = valueTypes [r] ++ valueTypes rs := by
  cases r <;> rfl

theorem places_spec (one : Bool) : ∀ (rs : List Req) (i k : Nat),
    (places one (bases rs) i k).length = (valueTypes rs).length ∧
    (places one (bases rs) i k).Pairwise (fun a b => a.1 < b.1 ∧ (one = false → a.2 ≠ b.2)) ∧
    ∀ d ∈ places one (bases rs) i k, i ≤ d.1 ∧ (one = false → ∃ m, k ≤ m ∧ d.2 = some m) ∧
      ∃ r t j, rs[d.1 - i]? = some r ∧ valueTypes [r] = [t] ∧ (valueTypes rs)[j]? = some t ∧ d.2 = (if one then none else some (k + j))
  | [], i, k => by simp [bases, places, valueTypes]
  | r :: rs, i, k => by
    have hv : (isVoid (.base r) = true ∧ valueTypes [r] = []) ∨ (isVoid (.base r) = false ∧ ∃ t, valueTypes [r] = [t]) := by
      cases r with
      | void => exact .inl ⟨rfl, rfl⟩
      | ty t => exact .inr ⟨rfl, t, rfl⟩
      | valid t p m => exact .inr ⟨rfl, t, rfl⟩
    rcases hv with ⟨h1, h2⟩ | ⟨h1, t, h2⟩
    · obtain ⟨e1, e2, e3⟩ := places_spec one rs (i + 1) k
      have hp : places one (bases (r :: rs)) i k = places one (bases rs) (i + 1) k := by
        simp [bases, places, h1]
      rw [hp, valueTypes_cons, h2]
      refine ⟨e1, e2, fun d hd => ?_⟩
      obtain ⟨f1, f2, r', t', j, f3, f4, f5, f6⟩ := e3 d hd
      refine ⟨by omega, f2, r', t', j, ?_, f4, f5, f6⟩
      have : d.1 - i = d.1 - (i + 1) + 1 := by omega
      rw [this]; exact f3
    · obtain ⟨e1, e2, e3⟩ := places_spec one rs (i + 1) (k + 1)
      have hp : places one (bases (r :: rs)) i k = (i, if one then none else some k) :: places one (bases rs) (i + 1) (k + 1) := by
        simp [bases, places, h1]
      rw [hp, valueTypes_cons, h2]
      refine ⟨by simp [e1], ?_, fun d hd => ?_⟩
      · refine List.pairwise_cons.mpr ⟨fun d hd => ?_, e2⟩
        obtain ⟨f1, f2, _⟩ := e3 d hd
        refine ⟨f1, fun ho => ?_⟩
        obtain ⟨m, hm, hm'⟩ := f2 ho
        rw [hm', ho]
        intro h
        have : k = m := by simpa using h
        omega
      · rcases List.mem_cons.mp hd with rfl | hd
        · refine ⟨Nat.le_refl _, fun ho => ⟨k, Nat.le_refl _, by simp [ho]⟩, r, t, 0, by simp, h2, by simp, by simp⟩
        · obtain ⟨f1, f2, r', t', j, f3, f4, f5, f6⟩ := e3 d hd
          refine ⟨by omega, fun ho => ?_, r', t', j + 1, ?_, f4, by simpa using f5, ?_⟩
          · obtain ⟨m, hm, hm'⟩ := f2 ho
            exact ⟨m, by omega, hm'⟩
          · have : d.1 - i = d.1 - (i + 1) + 1 := by omega
            rw [this]; exact f3
          · rw [f6]; congr 2; omega

theorem countP_values (rs : List Req) : (rs.countP fun r => !isVoid (.base r)) = (valueTypes rs).length := by
  induction rs with
  | nil => rfl
  | cons r rs ih => rw [List.countP_cons, ih]; cases r <;> rfl

/-- C57: every requested type that is not void has its own place in the result - the whole of it, if there is only one, else
an element of the tuple - in the order of the request, and the object in that place is of the type requested. -/
theorem C57_destinations {rs : List Req} (h : valueTypes rs ≠ []) : ∃ T ds, rowType (bases rs) = some T ∧
    destinations (bases rs) = some ds ∧ ds.length = (valueTypes rs).length ∧ ds.Pairwise (fun a b => a.1 < b.1 ∧ a.2 ≠ b.2) ∧
    ∀ d ∈ ds, ∃ r t, rs[d.1]? = some r ∧ valueTypes [r] = [t] ∧ T.at? d.2 = some (.base (.ty t)) := by
  obtain ⟨T, hT⟩ : ∃ T, resultType (valueTypes rs) = some T := by
    match hv : valueTypes rs with
    | [] => exact absurd hv h
    | [t] => exact ⟨_, rfl⟩
    | t :: u :: ts => exact ⟨_, rfl⟩
  obtain ⟨e1, e2, e3⟩ := places_spec ((valueTypes rs).length == 1) rs 0 0
  refine ⟨T, _, by rw [C57_result_type, hT], by rw [destinations, (C57_count isVoid rs).2, Option.map_some, countP_values], e1, ?_, ?_⟩
  · by_cases hl : (valueTypes rs).length = 1
    · obtain ⟨d, hd⟩ := List.length_eq_one_iff.mp (e1.trans hl)
      rw [hd]
      simp
    · exact e2.imp fun hab => ⟨hab.1, hab.2 (by simpa using hl)⟩
  · intro d hd
    obtain ⟨_, _, r, t, j, f1, f2, f3, f4⟩ := e3 d hd
    refine ⟨r, t, by simpa using f1, f2, ?_⟩
    rw [f4]
    match hv : valueTypes rs with
    | [] => exact absurd hv h
    | [u] =>
      rw [hv] at hT f3
      have : j = 0 := by
        cases j with
        | zero => rfl
        | succ j => simp at f3
      subst this
      cases hT
      simp at f3
      simp [at?, f3]
    | u :: u' :: us =>
      rw [hv] at hT f3
      cases hT
      rw [if_neg (by simp), Nat.zero_add]
      show ((u :: u' :: us).map fun t => Tp.base (Req.ty t))[j]? = _
      rw [List.getElem?_map, f3]; rfl

/-! ## The options of the header -/

theorem setupOptions_bare (os : List Opt) : setupOptions (bases (os.map .opt)) = os := by
  match os with
  | [] => simp [bases, setupOptions]
  | [o] => simp [bases, setupOptions, asOpt]
  | o :: o' :: os =>
    rw [setupOptions]
    · induction os with
      | nil => rfl
      | cons a as ih => simpa [bases, asOpt] using ih
    · intro _ h; simp [bases] at h
    · intro _ h; simp [bases] at h

/-- C57: the header is split with the options of the parser without `multiline`; not so if they are given as one
`ss::setup<...>` (see `C36_wrapped_multiline`), then with all of them. -/
theorem C57_header_options (os : List Opt) (hm : ∀ n b, os ≠ [.multiline n b]) :
    headerOptions (bases (os.map .opt)) = some (os.filter fun o => o.kind ≠ .multiline) ∧
    headerOptions [.tup (bases (os.map .opt))] = some (os.filter fun o => o.kind ≠ .multiline) ∧
    headerOptions (bases [.setup os]) = some os := by
  have key : headerOptions (bases (os.map .opt)) = some (os.filter fun o => o.kind ≠ .multiline) := by
    unfold headerOptions
    cases os with
    | nil => simp [bases, filterNot, filterIf, applyOptional, applyTrait, optional, isMultiline, removeFalse, setupOptions]
    | cons o os =>
      rw [C57_filter_not (by simp)]
      · rw [Option.map_some]
        have : ((o :: os).map OptArg.opt).filter (fun a => !isMultiline (.base a)) =
            ((o :: os).filter fun o => o.kind ≠ .multiline).map OptArg.opt := by
          rw [List.filter_map]
          congr 1
          apply List.filter_congr
          intro a _
          cases a <;> rfl
        rw [this]
        congr 1
        generalize ((o :: os).filter fun o => o.kind ≠ .multiline) = l
        rw [setupOptions, setupOptions_bare]
      · intro a h
        match os with
        | [] =>
          simp only [List.map_cons, List.map_nil, List.cons.injEq, and_true] at h
          subst h
          cases o with
          | multiline n b => exact absurd rfl (hm n b)
          | _ => rfl
        | _ :: _ => simp at h
  refine ⟨key, ?_, ?_⟩
  · have : filterNot isMultiline [.tup (bases (os.map .opt))] = filterNot isMultiline (bases (os.map .opt)) := filterIf_tup _ _
    rw [headerOptions, this]; exact key
  · rw [headerOptions, C57_filter_not (by simp)]
    · simp [bases, isMultiline, setupOptions]
    · intro a h; cases h; rfl

/-- what these options mean: the same setup without multiline -/
theorem C57_header_setup (os : List Opt) :
    Setup.resolve (os.filter fun o => o.kind ≠ .multiline) = { Setup.resolve os with multiline := false, mlLimit := 0 } := by
  have hc : ∀ k, k ≠ .multiline → Setup.count k (os.filter fun o => o.kind ≠ .multiline) = Setup.count k os := by
    intro k hk
    unfold Setup.count
    rw [List.filter_filter]
    congr 1
    apply List.filter_congr
    intro o _
    by_cases h : o.kind = k
    · simp [h, hk]
    · simp [h]
  have hm : ∀ k, k ≠ .multiline → Setup.matcher k (os.filter fun o => o.kind ≠ .multiline) = Setup.matcher k os := by
    intro k hk
    clear hc
    induction os with
    | nil => rfl
    | cons o os ih =>
      rw [List.filter_cons]
      by_cases h : o.kind = .multiline
      · rw [if_neg (by simp [h]), ih, Setup.matcher, if_neg (fun h' : o.kind = k => hk (h' ▸ h))]
      · rw [if_pos (by simp [h]), Setup.matcher, Setup.matcher, ih]
  have hg : Setup.getMultiline (os.filter fun o => o.kind ≠ .multiline) = (0, false) := by
    clear hc hm
    induction os with
    | nil => rfl
    | cons o os ih =>
      rw [List.filter_cons]
      cases o <;> exact ih
  unfold Setup.resolve Setup.trimL Setup.trimR
  simp only [hc _ (by decide : Setup.Kind.throwOnError ≠ .multiline), hc _ (by decide : Setup.Kind.stringError ≠ .multiline),
    hc _ (by decide : Setup.Kind.ignoreHeader ≠ .multiline), hc _ (by decide : Setup.Kind.ignoreEmpty ≠ .multiline),
    hm _ (by decide : Setup.Kind.quote ≠ .multiline), hm _ (by decide : Setup.Kind.escape ≠ .multiline),
    hm _ (by decide : Setup.Kind.trim ≠ .multiline), hm _ (by decide : Setup.Kind.trimLeft ≠ .multiline),
    hm _ (by decide : Setup.Kind.trimRight ≠ .multiline), hg]

/-- the counts the static asserts of `ss::setup` are about (`Setup.count`, `Setup.countMatcher`) -/
theorem C57_setup_counts (os : List Opt) (k : Setup.Kind) :
    count (fun t => match t with | .base o => decide (o.kind = k) | _ => false) (bases os) = some (Setup.count k os) := by
  rw [(C57_count _ os).1, List.countP_eq_length_filter]; rfl

/-! ## Examples -/

/-- `convert<int, void, ss::ne<std::string>>`: a tuple of two values; the conversions of the types 0 and 2 go to its elements
0 and 1 -/
example : rowType (bases [.ty (.int ⟨true, 32⟩), .void, .valid .str neValid []]) = some (.tup [.base (.ty (.int ⟨true, 32⟩)), .base (.ty .str)]) ∧
    destinations (bases [.ty (.int ⟨true, 32⟩), .void, .valid .str neValid []]) = some [(0, some 0), (2, some 1)] := by
  constructor
  · rw [C57_result_type]; rfl
  · rw [destinations, (C57_count _ _).2]; rfl

/-- `convert<void, std::string>`: the string itself -/
example : rowType (bases [.void, .ty .str]) = some (.base (.ty .str)) ∧ destinations (bases [.void, .ty .str]) = some [(1, none)] := by
  constructor
  · rw [C57_result_type]; rfl
  · rw [destinations, (C57_count _ _).2]; rfl

/-- a nested tuple is not a type like any other: it is spliced -/
theorem C57_nested_tuple : filterIf (fun _ => true) [.base 1, .tup [.base 2, .base 3]] = some (.tup [.base 1, .base 2, .base 3]) ∧
    filterIf (fun _ => true) [.tup [.base 1, .base 2], .base 3, .base 4] = some (.tup [.base 1, .base 2, .base 3, .base 4]) := by
  constructor <;> simp [filterIf, applyOptional, applyTrait, optional, cat, removeFalse]

example : headerOptions (bases ([Opt.quote 34, .multiline 0 true, .trim [32]].map .opt)) = some [.quote 34, .trim [32]] :=
  (C57_header_options _ (by intro n b h; cases h)).1

end Tp
end Ssp
