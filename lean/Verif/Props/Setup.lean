import Verif.Spec.Setup
/-!
# C43: setup options are order independent and conflicts are rejected
-/
namespace Ssp.Setup

theorem count_eq (k : Kind) (l : List Opt) : count k l = (l.map Opt.kind).count k := by
  induction l with
  | nil => rfl
  | cons o l ih =>
    simp only [count, List.filter_cons, List.map_cons, List.count_cons] at *
    by_cases h : o.kind = k <;> simp [h, ih]

theorem matcher_of_mem {k : Kind} {l : List Opt} (hc : count k l ≤ 1) {o : Opt} (ho : o ∈ l) (hk : o.kind = k) :
    matcher k l = o.chars := by
  induction l with
  | nil => cases ho
  | cons p l ih =>
    simp only [matcher]
    by_cases hp : p.kind = k
    · rw [if_pos hp]
      rcases List.mem_cons.mp ho with rfl | ho
      · rfl
      · exfalso
        have : 0 < (l.filter fun o => o.kind = k).length :=
          List.length_pos_of_mem (List.mem_filter.mpr ⟨ho, by simpa using hk⟩)
        simp only [count, List.filter_cons, hp, decide_true, if_true, List.length_cons] at hc
        omega
    · rw [if_neg hp]
      rcases List.mem_cons.mp ho with rfl | ho
      · exact absurd hk hp
      · exact ih (by simpa [count, List.filter_cons, hp] using hc) ho

theorem matcher_of_none {k : Kind} {l : List Opt} (h : ∀ o ∈ l, o.kind ≠ k) : matcher k l = [NUL] := by
  induction l with
  | nil => rfl
  | cons p l ih =>
    simp only [matcher]
    rw [if_neg (h p (by simp)), ih fun o ho => h o (by simp [ho])]

theorem matcher_cases {k : Kind} {l : List Opt} : (∃ o ∈ l, o.kind = k ∧ matcher k l = o.chars) ∨
    ((∀ o ∈ l, o.kind ≠ k) ∧ matcher k l = [NUL]) := by
  by_cases h : ∀ o ∈ l, o.kind ≠ k
  · exact .inr ⟨h, matcher_of_none h⟩
  · left
    simp only [ne_eq, Classical.not_forall, Classical.not_not] at h
    induction l with
    | nil => obtain ⟨o, ho, _⟩ := h; cases ho
    | cons p l ih =>
      simp only [matcher]
      by_cases hp : p.kind = k
      · exact ⟨p, by simp, hp, by rw [if_pos hp]⟩
      · obtain ⟨o, ho, hk⟩ := h
        rcases List.mem_cons.mp ho with rfl | ho
        · exact absurd hk hp
        · obtain ⟨o', h1, h2, h3⟩ := ih ⟨o, ho, hk⟩
          exact ⟨o', by simp [h1], h2, by rw [if_neg hp]; exact h3⟩

theorem getMultiline_of_mem {l : List Opt} (hc : count .multiline l ≤ 1) {n : Nat} {b : Bool}
    (h : Opt.multiline n b ∈ l) : getMultiline l = (n, b) := by
  induction l with
  | nil => cases h
  | cons p l ih =>
    by_cases hp : p.kind = .multiline
    · cases p <;> simp [Opt.kind] at hp
      rename_i m b'
      simp only [getMultiline]
      rcases List.mem_cons.mp h with h | h
      · cases h; rfl
      · exfalso
        have : 0 < (l.filter fun o => o.kind = .multiline).length :=
          List.length_pos_of_mem (List.mem_filter.mpr ⟨h, by simp [Opt.kind]⟩)
        simp only [count, List.filter_cons, Opt.kind, decide_true, if_true, List.length_cons] at hc this
        omega
    · have h' : Opt.multiline n b ∈ l := by
        rcases List.mem_cons.mp h with h | h
        · rw [← h] at hp; simp [Opt.kind] at hp
        · exact h
      have := ih (by simpa [count, List.filter_cons, hp] using hc) h'
      cases p <;> simp [Opt.kind] at hp <;> simpa [getMultiline] using this

theorem getMultiline_mem {l : List Opt} : getMultiline l = (0, false) ∨
    Opt.multiline (getMultiline l).1 (getMultiline l).2 ∈ l := by
  induction l with
  | nil => simp [getMultiline]
  | cons p l ih =>
    cases p <;> simp only [getMultiline] <;> first
      | (rcases ih with ih | ih
         · exact .inl ih
         · exact .inr (by simp [ih]))
      | exact .inr (by simp)

theorem getMultiline_of_none {l : List Opt} (h : ∀ n b, Opt.multiline n b ∉ l) : getMultiline l = (0, false) := by
  rcases getMultiline_mem (l := l) with h' | h'
  · exact h'
  · exact absurd h' (h _ _)

theorem intersect_false {a b : List Byte} : intersect a b = false ↔ ∀ x, x ≠ NUL → x ∈ a → x ∉ b := by
  rw [← Bool.not_eq_true]
  simp only [intersect, List.any_eq_true, Bool.and_eq_true, bne_iff_ne, ne_eq, beq_iff_eq]
  constructor
  · intro h x h0 h1 h2; exact h ⟨x, h1, x, h2, h0, rfl⟩
  · rintro h ⟨x, h1, y, h2, h0, rfl⟩; exact h x h0 h1 h2

/-- the pieces of `compiles` -/
theorem compiles_iff (l : List Opt) : compiles l = true ↔
    (count .quote l ≤ 1 ∧ count .escape l ≤ 1 ∧ count .trim l ≤ 1 ∧ count .trimLeft l ≤ 1 ∧ count .trimRight l ≤ 1) ∧
    (matcherOk (matcher .quote l) ∧ matcherOk (matcher .escape l) ∧ matcherOk (matcher .trim l) ∧
      matcherOk (matcher .trimLeft l) ∧ matcherOk (matcher .trimRight l)) ∧
    (intersect (matcher .escape l) (matcher .quote l) = false ∧ intersect (matcher .quote l) (trimL l) = false ∧
      intersect (matcher .quote l) (trimR l) = false ∧ intersect (matcher .escape l) (trimL l) = false ∧
      intersect (matcher .escape l) (trimR l) = false) ∧
    ((getMultiline l).2 = true → enabled (matcher .quote l) = true ∨ enabled (matcher .escape l) = true) ∧
    (enabled (matcher .trim l) = true → enabled (matcher .trimLeft l) = false ∧ enabled (matcher .trimRight l) = false) ∧
    (count .multiline l ≤ 1 ∧ count .throwOnError l + count .stringError l ≤ 1) ∧
    countMatcher l + count .multiline l + count .stringError l + count .ignoreHeader l + count .ignoreEmpty l +
      count .throwOnError l = l.length := by
  simp only [compiles, Bool.and_eq_true, decide_eq_true_eq, Bool.not_eq_true', Bool.or_eq_false_iff, beq_iff_eq,
    Bool.or_eq_true, Bool.and_eq_false_iff]
  constructor
  · rintro ⟨⟨⟨⟨⟨⟨⟨⟨⟨⟨⟨⟨⟨⟨⟨⟨⟨⟨⟨a1, a2⟩, a3⟩, a4⟩, a5⟩, b1⟩, b2⟩, b3⟩, b4⟩, b5⟩, c1⟩, c2⟩, c3⟩, d⟩, e⟩, f⟩, f1⟩, f2⟩, g⟩, i⟩
    refine ⟨⟨a1, a2, a3, a4, a5⟩, ⟨b1, b2, b3, b4, b5⟩, ⟨c1, c2.1, c2.2, c3.1, c3.2⟩, ?_, ?_, ⟨f, g⟩, i⟩
    · intro hm; rcases d with d | d
      · rw [hm] at d; cases d
      · exact d.2
    · intro ht
      rw [ht] at e
      simpa using e
  · rintro ⟨⟨a1, a2, a3, a4, a5⟩, ⟨b1, b2, b3, b4, b5⟩, ⟨c1, c2, c3, c4, c5⟩, d, e, ⟨f, g⟩, i⟩
    refine ⟨⟨⟨⟨⟨⟨⟨⟨⟨⟨⟨⟨⟨⟨⟨⟨⟨⟨⟨a1, a2⟩, a3⟩, a4⟩, a5⟩, b1⟩, b2⟩, b3⟩, b4⟩, b5⟩, c1⟩, c2, c3⟩, c4, c5⟩, ?_⟩, ?_⟩, f⟩, by omega⟩, by omega⟩, g⟩, i⟩
    · cases hm : (getMultiline l).2 with
      | false => exact .inl rfl
      | true => exact .inr ⟨rfl, d hm⟩
    · cases ht : enabled (matcher .trim l) with
      | false => simp
      | true => simpa [ht] using e ht

theorem count_other_iff (l : List Opt) : countMatcher l + count .multiline l + count .stringError l +
    count .ignoreHeader l + count .ignoreEmpty l + count .throwOnError l = l.length ↔ .other ∉ l := by
  have key : countMatcher l + count .multiline l + count .stringError l + count .ignoreHeader l + count .ignoreEmpty l +
      count .throwOnError l + count .other l = l.length := by
    induction l with
    | nil => rfl
    | cons o l ih =>
      cases o <;> simp [countMatcher, count, Opt.kind] at ih ⊢ <;> omega
  have : count .other l = 0 ↔ .other ∉ l := by
    simp only [count, List.length_eq_zero_iff, List.filter_eq_nil_iff, decide_eq_true_eq]
    constructor
    · intro h hm; exact h _ hm rfl
    · rintro h o ho hk
      cases o <;> simp [Opt.kind] at hk
      exact h ho
  rw [← this]
  constructor <;> intro h <;> omega

theorem group_kinds {k : Kind} (h : group k ≠ 0) : k = .quote ∨ k = .escape ∨ k = .trim ∨ k = .trimLeft ∨ k = .trimRight := by
  cases k <;> simp [group] at h ⊢

theorem chars_group {o : Opt} {x : Byte} (h : x ∈ o.chars) : group o.kind ≠ 0 := by
  cases o <;> simp [Opt.chars, Opt.kind, group] at h ⊢

theorem matcherOk_iff (m : List Byte) : matcherOk m = true ↔ m = [NUL] ∨ (m ≠ [] ∧ NUL ∉ m) := by
  simp [matcherOk, enabled]

theorem enabled_iff (m : List Byte) : enabled m = true ↔ m ≠ [NUL] := by simp [enabled]

theorem mem_trimL {l : List Opt} {x : Byte} (hx : x ≠ NUL) (h : x ∈ trimL l) :
    ∃ o ∈ l, group o.kind = 3 ∧ x ∈ o.chars := by
  unfold trimL at h
  split at h
  · rcases matcher_cases (k := .trim) (l := l) with ⟨o, h1, h2, h3⟩ | ⟨_, h3⟩
    · exact ⟨o, h1, by rw [h2]; rfl, h3 ▸ h⟩
    · rw [h3] at h; simp at h; exact absurd h hx
  · rcases matcher_cases (k := .trimLeft) (l := l) with ⟨o, h1, h2, h3⟩ | ⟨_, h3⟩
    · exact ⟨o, h1, by rw [h2]; rfl, h3 ▸ h⟩
    · rw [h3] at h; simp at h; exact absurd h hx

theorem mem_trimR {l : List Opt} {x : Byte} (hx : x ≠ NUL) (h : x ∈ trimR l) :
    ∃ o ∈ l, group o.kind = 3 ∧ x ∈ o.chars := by
  unfold trimR at h
  split at h
  · rcases matcher_cases (k := .trim) (l := l) with ⟨o, h1, h2, h3⟩ | ⟨_, h3⟩
    · exact ⟨o, h1, by rw [h2]; rfl, h3 ▸ h⟩
    · rw [h3] at h; simp at h; exact absurd h hx
  · rcases matcher_cases (k := .trimRight) (l := l) with ⟨o, h1, h2, h3⟩ | ⟨_, h3⟩
    · exact ⟨o, h1, by rw [h2]; rfl, h3 ▸ h⟩
    · rw [h3] at h; simp at h; exact absurd h hx

/-- C43: a setup compiles iff it is legal: no special character is shared by quote, escape and trim, NUL is not used,
options are not repeated or combined with their opposites, and multiline comes with quote or escape. -/
theorem C43_compiles_iff_partial (l : List Opt) : compiles l = true ↔ Legal l := by
  rw [compiles_iff, count_other_iff]
  constructor
  · rintro ⟨⟨a1, a2, a3, a4, a5⟩, ⟨b1, b2, b3, b4, b5⟩, ⟨c1, c2, c3, c4, c5⟩, d, e, ⟨f, g⟩, i⟩
    rw [intersect_false] at c1 c2 c3 c4 c5
    have hgc : ∀ k, group k ≠ 0 → count k l ≤ 1 := by
      intro k hk
      rcases group_kinds hk with rfl | rfl | rfl | rfl | rfl <;> assumption
    have hmem : ∀ o ∈ l, group o.kind ≠ 0 → matcher o.kind l = o.chars := fun o ho hk => matcher_of_mem (hgc _ hk) ho rfl
    have htl : ∀ o ∈ l, ∀ x, x ≠ NUL → x ∈ o.chars → group o.kind = 3 → x ∈ trimL l ∨ x ∈ trimR l := by
      intro o ho x hx hm hg
      have h1 := hmem o ho (by omega)
      have hen : enabled (matcher o.kind l) = true := by
        rw [h1, enabled_iff]; rintro h2; rw [h2] at hm; simp at hm; exact hx hm
      rw [← h1] at hm
      rcases group_kinds (k := o.kind) (by omega) with h | h | h | h | h <;> rw [h] at hg hen hm <;> simp [group] at hg
      · left; simpa [trimL, hen] using hm
      · left
        have : enabled (matcher .trim l) = false := by
          cases ht : enabled (matcher .trim l) with
          | false => rfl
          | true => rw [(e ht).1] at hen; cases hen
        simpa [trimL, this] using hm
      · right
        have : enabled (matcher .trim l) = false := by
          cases ht : enabled (matcher .trim l) with
          | false => rfl
          | true => rw [(e ht).2] at hen; cases hen
        simpa [trimR, this] using hm
    have hq : ∀ o ∈ l, ∀ x, x ∈ o.chars → group o.kind = 1 → x ∈ matcher .quote l := by
      intro o ho x hm hg
      rw [← hmem o ho (by omega)] at hm
      rcases group_kinds (k := o.kind) (by omega) with h | h | h | h | h <;> rw [h] at hg hm <;> simp [group] at hg
      exact hm
    have he : ∀ o ∈ l, ∀ x, x ∈ o.chars → group o.kind = 2 → x ∈ matcher .escape l := by
      intro o ho x hm hg
      rw [← hmem o ho (by omega)] at hm
      rcases group_kinds (k := o.kind) (by omega) with h | h | h | h | h <;> rw [h] at hg hm <;> simp [group] at hg
      exact hm
    have hg3 : ∀ k, group k ≠ 0 → group k = 1 ∨ group k = 2 ∨ group k = 3 := by intro k; cases k <;> simp [group]
    refine ⟨i, ?_, ?_, ?_, ?_, ?_, ?_⟩
    · intro k h1 h2
      rw [← count_eq]
      cases k <;> first | assumption | omega | skip
      · simp at h1
      · simp at h2
      · have : count .other l = 0 := by
          simp only [count, List.length_eq_zero_iff, List.filter_eq_nil_iff, decide_eq_true_eq]
          rintro o ho hk
          cases o <;> simp [Opt.kind] at hk
          exact i ho
        omega
    · rintro ⟨h1, h2⟩
      have p1 : 0 < count .stringError l := List.length_pos_of_mem (List.mem_filter.mpr ⟨h1, by simp [Opt.kind]⟩)
      have p2 : 0 < count .throwOnError l := List.length_pos_of_mem (List.mem_filter.mpr ⟨h2, by simp [Opt.kind]⟩)
      omega
    · intro o ho hk
      rw [← hmem o ho hk, ← matcherOk_iff]
      rcases group_kinds hk with h | h | h | h | h <;> rw [h] <;> assumption
    · intro o ho o' ho' x hx h1 h2
      have k1 := chars_group h1
      have k2 := chars_group h2
      rcases hg3 _ k1 with g1 | g1 | g1 <;> rcases hg3 _ k2 with g2 | g2 | g2 <;> try (rw [g1, g2]) <;> exfalso
      · exact c1 x hx (he o' ho' x h2 g2) (hq o ho x h1 g1)
      · rcases htl o' ho' x hx h2 g2 with h | h
        · exact c2 x hx (hq o ho x h1 g1) h
        · exact c3 x hx (hq o ho x h1 g1) h
      · exact c1 x hx (he o ho x h1 g1) (hq o' ho' x h2 g2)
      · rcases htl o' ho' x hx h2 g2 with h | h
        · exact c4 x hx (he o ho x h1 g1) h
        · exact c5 x hx (he o ho x h1 g1) h
      · rcases htl o ho x hx h1 g1 with h | h
        · exact c2 x hx (hq o' ho' x h2 g2) h
        · exact c3 x hx (hq o' ho' x h2 g2) h
      · rcases htl o ho x hx h1 g1 with h | h
        · exact c4 x hx (he o' ho' x h2 g2) h
        · exact c5 x hx (he o' ho' x h2 g2) h
    · intro cs ds h1 h2
      have t := hmem _ h1 (by simp [Opt.kind, group])
      simp only [Opt.kind, Opt.chars] at t
      by_cases hcs : cs = [NUL]
      · exact .inl hcs
      · right
        have := e (by rw [enabled_iff, t]; exact hcs)
        rcases h2 with h2 | h2
        · have t2 := hmem _ h2 (by simp [Opt.kind, group])
          simp only [Opt.kind, Opt.chars] at t2
          have := this.1; rw [t2] at this; simpa [enabled] using this
        · have t2 := hmem _ h2 (by simp [Opt.kind, group])
          simp only [Opt.kind, Opt.chars] at t2
          have := this.2; rw [t2] at this; simpa [enabled] using this
    · intro n hn
      rcases d (by rw [getMultiline_of_mem f hn]) with h | h
      · rcases matcher_cases (k := .quote) (l := l) with ⟨o, h1, h2, h3⟩ | ⟨_, h3⟩
        · exact ⟨o, h1, .inl h2, by rw [← h3]; exact (enabled_iff _).mp h⟩
        · rw [h3] at h; cases h
      · rcases matcher_cases (k := .escape) (l := l) with ⟨o, h1, h2, h3⟩ | ⟨_, h3⟩
        · exact ⟨o, h1, .inr h2, by rw [← h3]; exact (enabled_iff _).mp h⟩
        · rw [h3] at h; cases h
  · intro L
    have hc : ∀ k, k ≠ .ignoreHeader → k ≠ .ignoreEmpty → count k l ≤ 1 := fun k h1 h2 => by
      rw [count_eq]; exact L.once k h1 h2
    have hok : ∀ k, group k ≠ 0 → matcherOk (matcher k l) = true := by
      intro k hk
      rw [matcherOk_iff]
      rcases matcher_cases (k := k) (l := l) with ⟨o, h1, h2, h3⟩ | ⟨_, h3⟩
      · rw [h3]; exact L.nul o h1 (by rw [h2]; exact hk)
      · exact .inl h3
    have hm : ∀ k x, x ≠ NUL → x ∈ matcher k l → ∃ o ∈ l, o.kind = k ∧ x ∈ o.chars := by
      intro k x hx h
      rcases matcher_cases (k := k) (l := l) with ⟨o, h1, h2, h3⟩ | ⟨_, h3⟩
      · exact ⟨o, h1, h2, h3 ▸ h⟩
      · rw [h3] at h; simp at h; exact absurd h hx
    have hdis : ∀ (k k' : Kind) o' x, x ≠ NUL → x ∈ matcher k l → o' ∈ l → x ∈ o'.chars → group k ≠ group o'.kind → False := by
      intro k k' o' x hx h1 h2 h3 hne
      obtain ⟨o, a1, a2, a3⟩ := hm k x hx h1
      exact hne (by rw [← a2]; exact L.disjoint o a1 o' h2 x hx a3 h3)
    refine ⟨⟨hc _ (by simp) (by simp), hc _ (by simp) (by simp), hc _ (by simp) (by simp), hc _ (by simp) (by simp),
      hc _ (by simp) (by simp)⟩, ⟨hok _ (by simp [group]), hok _ (by simp [group]), hok _ (by simp [group]),
      hok _ (by simp [group]), hok _ (by simp [group])⟩, ⟨?_, ?_, ?_, ?_, ?_⟩, ?_, ?_, ⟨hc _ (by simp) (by simp), ?_⟩, L.known⟩
    · rw [intersect_false]; intro x hx h1 h2
      obtain ⟨o, a1, a2, a3⟩ := hm _ x hx h2
      exact hdis .escape .quote o x hx h1 a1 a3 (by rw [a2]; simp [group])
    · rw [intersect_false]; intro x hx h1 h2
      obtain ⟨o, a1, a2, a3⟩ := mem_trimL hx h2
      exact hdis .quote .trim o x hx h1 a1 a3 (by rw [a2]; simp [group])
    · rw [intersect_false]; intro x hx h1 h2
      obtain ⟨o, a1, a2, a3⟩ := mem_trimR hx h2
      exact hdis .quote .trim o x hx h1 a1 a3 (by rw [a2]; simp [group])
    · rw [intersect_false]; intro x hx h1 h2
      obtain ⟨o, a1, a2, a3⟩ := mem_trimL hx h2
      exact hdis .escape .trim o x hx h1 a1 a3 (by rw [a2]; simp [group])
    · rw [intersect_false]; intro x hx h1 h2
      obtain ⟨o, a1, a2, a3⟩ := mem_trimR hx h2
      exact hdis .escape .trim o x hx h1 a1 a3 (by rw [a2]; simp [group])
    · intro hml
      rcases getMultiline_mem (l := l) with h | h
      · rw [h] at hml; cases hml
      · rw [hml] at h
        obtain ⟨o, h1, h2, h3⟩ := L.multiline _ h
        rcases h2 with h2 | h2
        · left; rw [enabled_iff, matcher_of_mem (hc _ (by simp) (by simp)) h1 h2]; exact h3
        · right; rw [enabled_iff, matcher_of_mem (hc _ (by simp) (by simp)) h1 h2]; exact h3
    · intro ht
      rw [enabled_iff] at ht
      rcases matcher_cases (k := .trim) (l := l) with ⟨o, h1, h2, h3⟩ | ⟨_, h3⟩
      · cases o <;> simp [Opt.kind] at h2
        rename_i cs
        rw [h3] at ht
        constructor
        · cases hx : enabled (matcher .trimLeft l) with
          | false => rfl
          | true =>
            exfalso
            rw [enabled_iff] at hx
            rcases matcher_cases (k := .trimLeft) (l := l) with ⟨o', a1, a2, a3⟩ | ⟨_, a3⟩
            · cases o' <;> simp [Opt.kind] at a2
              rename_i ds
              rcases L.trims cs ds h1 (.inl a1) with h | h
              · exact ht h
              · exact hx (a3.trans h)
            · exact hx a3
        · cases hx : enabled (matcher .trimRight l) with
          | false => rfl
          | true =>
            exfalso
            rw [enabled_iff] at hx
            rcases matcher_cases (k := .trimRight) (l := l) with ⟨o', a1, a2, a3⟩ | ⟨_, a3⟩
            · cases o' <;> simp [Opt.kind] at a2
              rename_i ds
              rcases L.trims cs ds h1 (.inr a1) with h | h
              · exact ht h
              · exact hx (a3.trans h)
            · exact hx a3
      · exact absurd h3 ht
    · have h1 := hc .stringError (by simp) (by simp)
      have h2 := hc .throwOnError (by simp) (by simp)
      by_cases h3 : count .stringError l = 0
      · omega
      · by_cases h4 : count .throwOnError l = 0
        · omega
        · exfalso
          apply L.modes
          constructor
          · obtain ⟨o, ho⟩ := List.exists_mem_of_length_pos (Nat.pos_of_ne_zero h3)
            obtain ⟨a, b⟩ := List.mem_filter.mp ho
            cases o <;> simp [Opt.kind] at b
            exact a
          · obtain ⟨o, ho⟩ := List.exists_mem_of_length_pos (Nat.pos_of_ne_zero h4)
            obtain ⟨a, b⟩ := List.mem_filter.mp ho
            cases o <;> simp [Opt.kind] at b
            exact a

theorem count_perm {k : Kind} {l l' : List Opt} (h : l.Perm l') : count k l = count k l' :=
  (h.filter _).length_eq

theorem matcher_perm {k : Kind} {l l' : List Opt} (h : l.Perm l') (hc : count k l ≤ 1) : matcher k l = matcher k l' := by
  rcases matcher_cases (k := k) (l := l) with ⟨o, h1, h2, h3⟩ | ⟨h1, h3⟩
  · rw [h3, matcher_of_mem (by rw [← count_perm h]; exact hc) (h.mem_iff.mp h1) h2]
  · rw [h3, matcher_of_none fun o ho => h1 o (h.mem_iff.mpr ho)]

/-- C43: permuting the options of a setup gives a setup that is legal iff the first one is, ... -/
theorem C43_perm_legal {l l' : List Opt} (h : l.Perm l') : Legal l ↔ Legal l' := by
  have key : ∀ {l l' : List Opt}, l.Perm l' → Legal l → Legal l' := by
    intro l l' h L
    have m : ∀ o, o ∈ l' → o ∈ l := fun o ho => h.mem_iff.mpr ho
    refine ⟨fun h' => L.known (m _ h'), ?_, fun h' => L.modes ⟨m _ h'.1, m _ h'.2⟩, fun o ho => L.nul o (m o ho),
      fun o ho o' ho' => L.disjoint o (m o ho) o' (m o' ho'),
      fun cs ds h1 h2 => L.trims cs ds (m _ h1) (h2.imp (m _) (m _)), ?_⟩
    · intro k h1 h2; rw [← (h.map _).count_eq]; exact L.once k h1 h2
    · intro n hn
      obtain ⟨o, a, b⟩ := L.multiline n (m _ hn)
      exact ⟨o, h.mem_iff.mp a, b⟩
  exact ⟨key h, key h.symm⟩

/-- C43: ... compiles iff the first one does, ... -/
theorem C43_perm_compiles {l l' : List Opt} (h : l.Perm l') : compiles l = compiles l' := by
  rw [Bool.eq_iff_iff, C43_compiles_iff_partial, C43_compiles_iff_partial]
  exact C43_perm_legal h

/-- C43: ... and means the same. -/
theorem C43_perm_same {l l' : List Opt} (h : l.Perm l') (hl : compiles l = true) : resolve l = resolve l' := by
  obtain ⟨⟨a1, a2, a3, a4, a5⟩, _, _, _, _, ⟨f, _⟩, _⟩ := (compiles_iff l).mp hl
  have hm : getMultiline l = getMultiline l' := by
    rcases getMultiline_mem (l := l) with h1 | h1
    · by_cases hx : ∃ n b, Opt.multiline n b ∈ l
      · obtain ⟨n, b, hx⟩ := hx
        rw [getMultiline_of_mem f hx, getMultiline_of_mem (by rw [← count_perm h]; exact f) (h.mem_iff.mp hx)]
      · rw [h1, getMultiline_of_none fun n b hn => hx ⟨n, b, h.mem_iff.mpr hn⟩]
    · rw [getMultiline_of_mem (l := l') (by rw [← count_perm h]; exact f) (h.mem_iff.mp h1)]
  simp only [resolve, trimL, trimR, matcher_perm h a1, matcher_perm h a2, matcher_perm h a3, matcher_perm h a4,
    matcher_perm h a5, hm, count_perm h]

/-- C43: a setup that compiles satisfies everything the other theorems assume of a setup. -/
theorem C43_resolve_wf {l : List Opt} (hl : compiles l = true) : (resolve l).WF := by
  have L := (C43_compiles_iff_partial l).mp hl
  obtain ⟨⟨a1, a2, a3, a4, a5⟩, ⟨b1, b2, b3, b4, b5⟩, ⟨c1, c2, c3, c4, c5⟩, d, e, ⟨f, g⟩, i⟩ := (compiles_iff l).mp hl
  rw [intersect_false] at c1 c2 c3 c4 c5
  have act : ∀ {m : List Byte} {x : Byte}, x ∈ active m → x ∈ m := by
    intro m x h; unfold active at h; split at h
    · exact h
    · cases h
  have hn : ∀ {m : List Byte}, matcherOk m = true → NUL ∉ active m := by
    intro m h h'
    rw [matcherOk_iff] at h
    rcases h with rfl | ⟨_, h⟩
    · simp [active, enabled] at h'
    · exact h (act h')
  have hne : ∀ {m : List Byte} {x : Byte}, matcherOk m = true → x ∈ active m → x ≠ NUL := by
    rintro m x h h' rfl; exact hn h h'
  have hq : ∀ q, (resolve l).quote = some q → q ∈ active (matcher .quote l) := fun q h => List.mem_of_head? h
  have hoL : matcherOk (trimL l) = true := by unfold trimL; split <;> assumption
  have hoR : matcherOk (trimR l) = true := by unfold trimR; split <;> assumption
  refine ⟨fun h => hn b1 (hq _ h), hn b2, hn hoL, hn hoR, ?_, ?_, ?_, ?_, ?_, ?_⟩
  · intro q h h'; exact c1 q (hne b1 (hq q h)) (act h') (act (hq q h))
  · intro q h h'; exact c2 q (hne b1 (hq q h)) (act (hq q h)) (act h')
  · intro q h h'; exact c3 q (hne b1 (hq q h)) (act (hq q h)) (act h')
  · intro x h h'; exact c4 x (hne b2 h) (act h) (act h')
  · intro x h h'; exact c5 x (hne b2 h) (act h) (act h')
  · intro h
    have act_ne : ∀ {m : List Byte}, enabled m = true → matcherOk m = true → active m ≠ [] := by
      intro m h1 h2
      rw [matcherOk_iff] at h2
      rw [enabled_iff] at h1
      unfold active
      rw [if_pos ((enabled_iff _).mpr h1)]
      rcases h2 with h2 | h2
      · exact absurd h2 h1
      · exact h2.1
    rcases d h with h | h
    · left
      intro hq'
      exact act_ne h b1 (List.head?_eq_none_iff.mp hq')
    · right; exact act_ne h b2

/-- C43: `trim` is the same as `trim_left` plus `trim_right` with the same characters. -/
theorem C43_trim_is_both (cs : List Byte) (l : List Opt)
    (h1 : ∀ o ∈ l, o.kind ≠ .trim ∧ o.kind ≠ .trimLeft ∧ o.kind ≠ .trimRight) :
    (compiles (.trim cs :: l) = compiles (.trimLeft cs :: .trimRight cs :: l)) ∧
    resolve (.trim cs :: l) = resolve (.trimLeft cs :: .trimRight cs :: l) := by
  have t1 := matcher_of_none fun o ho => (h1 o ho).1
  have t2 := matcher_of_none fun o ho => (h1 o ho).2.1
  have t3 := matcher_of_none fun o ho => (h1 o ho).2.2
  constructor
  · rw [Bool.eq_iff_iff, C43_compiles_iff_partial, C43_compiles_iff_partial]
    have cz : ∀ k, (k = .trim ∨ k = .trimLeft ∨ k = .trimRight) → (l.map Opt.kind).count k = 0 := by
      intro k hk
      rw [List.count_eq_zero, List.mem_map]
      rintro ⟨o, ho, rfl⟩
      have := h1 o ho
      rcases hk with h | h | h
      · exact this.1 h
      · exact this.2.1 h
      · exact this.2.2 h
    constructor
    · intro L
      refine ⟨?_, ?_, ?_, ?_, ?_, ?_, ?_⟩
      · have := L.known; simpa using this
      · intro k a b
        have := L.once k a b
        simp only [List.map_cons, List.count_cons, Opt.kind] at this ⊢
        by_cases hk : k = .trimLeft
        · subst hk; simp [cz]
        · by_cases hk' : k = .trimRight
          · subst hk'; simp [cz]
          · have e1 : (Kind.trimLeft == k) = false := by simpa using fun h => hk h.symm
            have e2 : (Kind.trimRight == k) = false := by simpa using fun h => hk' h.symm
            simp only [e1, e2]; simp only [Bool.false_eq_true, if_false, Nat.add_zero]; omega
      · have := L.modes; simpa using this
      · intro o ho hg
        have t := L.nul (.trim cs) (by simp) (by simp [Opt.kind, group])
        simp only [List.mem_cons] at ho
        rcases ho with rfl | rfl | ho
        · exact t
        · exact t
        · exact L.nul o (by simp [ho]) hg
      · intro o ho o' ho' x hx h2 h3
        have key : ∀ o, o ∈ Opt.trimLeft cs :: Opt.trimRight cs :: l →
            ∃ p ∈ Opt.trim cs :: l, p.chars = o.chars ∧ group p.kind = group o.kind := by
          intro o ho
          simp only [List.mem_cons] at ho
          rcases ho with rfl | rfl | ho
          · exact ⟨.trim cs, by simp, rfl, rfl⟩
          · exact ⟨.trim cs, by simp, rfl, rfl⟩
          · exact ⟨o, by simp [ho], rfl, rfl⟩
        obtain ⟨p, a1, a2, a3⟩ := key o ho
        obtain ⟨p', b1, b2, b3⟩ := key o' ho'
        rw [← a3, ← b3]
        exact L.disjoint p a1 p' b1 x hx (a2 ▸ h2) (b2 ▸ h3)
      · intro cs' ds h2 h3
        simp only [List.mem_cons, reduceCtorEq, false_or] at h2
        exact absurd rfl (h1 _ h2).1
      · intro n hn
        obtain ⟨o, a, b, b'⟩ := L.multiline n (by simpa using hn)
        simp only [List.mem_cons] at a
        rcases a with rfl | a
        · simp [Opt.kind] at b
        · exact ⟨o, by simp [a], b, b'⟩
    · intro L
      refine ⟨?_, ?_, ?_, ?_, ?_, ?_, ?_⟩
      · have := L.known; simpa using this
      · intro k a b
        have := L.once k a b
        simp only [List.map_cons, List.count_cons, Opt.kind] at this ⊢
        by_cases hk : k = .trim
        · subst hk; simp [cz]
        · have e1 : (Kind.trim == k) = false := by simpa using fun h => hk h.symm
          simp only [e1]; simp only [Bool.false_eq_true, if_false, Nat.add_zero]; omega
      · have := L.modes; simpa using this
      · intro o ho hg
        have t := L.nul (.trimLeft cs) (by simp) (by simp [Opt.kind, group])
        simp only [List.mem_cons] at ho
        rcases ho with rfl | ho
        · exact t
        · exact L.nul o (by simp [ho]) hg
      · intro o ho o' ho' x hx h2 h3
        have key : ∀ o, o ∈ Opt.trim cs :: l →
            ∃ p ∈ Opt.trimLeft cs :: Opt.trimRight cs :: l, p.chars = o.chars ∧ group p.kind = group o.kind := by
          intro o ho
          simp only [List.mem_cons] at ho
          rcases ho with rfl | ho
          · exact ⟨.trimLeft cs, by simp, rfl, rfl⟩
          · exact ⟨o, by simp [ho], rfl, rfl⟩
        obtain ⟨p, a1, a2, a3⟩ := key o ho
        obtain ⟨p', b1, b2, b3⟩ := key o' ho'
        rw [← a3, ← b3]
        exact L.disjoint p a1 p' b1 x hx (a2 ▸ h2) (b2 ▸ h3)
      · intro cs' ds h2 h3
        rcases h3 with h3 | h3 <;> simp only [List.mem_cons, reduceCtorEq, false_or] at h3
        · exact absurd rfl (h1 _ h3).2.1
        · exact absurd rfl (h1 _ h3).2.2
      · intro n hn
        obtain ⟨o, a, b, b'⟩ := L.multiline n (by simpa using hn)
        simp only [List.mem_cons] at a
        rcases a with rfl | rfl | a
        · simp [Opt.kind] at b
        · simp [Opt.kind] at b
        · exact ⟨o, by simp [a], b, b'⟩
  · have hc : ∀ k, k ≠ .trim → k ≠ .trimLeft → k ≠ .trimRight →
        count k (.trim cs :: l) = count k (.trimLeft cs :: .trimRight cs :: l) := by
      intro k a b d
      have e1 : ¬ (Kind.trim = k) := fun h => a h.symm
      have e2 : ¬ (Kind.trimLeft = k) := fun h => b h.symm
      have e3 : ¬ (Kind.trimRight = k) := fun h => d h.symm
      simp [count, Opt.kind, e1, e2, e3]
    simp only [resolve, trimL, trimR]
    rw [hc _ (by simp) (by simp) (by simp), hc _ (by simp) (by simp) (by simp), hc _ (by simp) (by simp) (by simp),
      hc _ (by simp) (by simp) (by simp)]
    simp only [matcher, Opt.kind, Opt.chars, t1, t2, t3, getMultiline, reduceCtorEq, if_true, if_false]
    by_cases hcs : cs = [NUL]
    · subst hcs; simp [enabled]
    · simp [enabled]
      split <;> simp_all

/-- C43 is false of the code for two options: `setup<ignore_header, ignore_header>` compiles, and the option is off. -/
theorem C43_repeated_ignore_disables :
    compiles [.ignoreHeader, .ignoreHeader] = true ∧ (resolve [.ignoreHeader, .ignoreHeader]).ignoreHeader = false ∧
    (resolve [.ignoreHeader]).ignoreHeader = true ∧
    compiles [.ignoreEmpty, .ignoreEmpty] = true ∧ (resolve [.ignoreEmpty, .ignoreEmpty]).ignoreEmpty = false ∧
    (resolve [.ignoreEmpty]).ignoreEmpty = true := by decide

theorem mem_active {k : Kind} {l : List Opt} (hc : count k l ≤ 1) (hok : matcherOk (matcher k l) = true) (x : Byte) :
    x ∈ active (matcher k l) ↔ ∃ o ∈ l, o.kind = k ∧ x ∈ o.chars ∧ x ≠ NUL := by
  rw [matcherOk_iff] at hok
  constructor
  · intro h
    unfold active at h
    split at h
    · rename_i he
      rcases matcher_cases (k := k) (l := l) with ⟨o, h1, h2, h3⟩ | ⟨_, h3⟩
      · refine ⟨o, h1, h2, h3 ▸ h, ?_⟩
        rintro rfl
        rcases hok with h4 | h4
        · exact (enabled_iff _).mp he h4
        · exact h4.2 h
      · exact absurd h3 ((enabled_iff _).mp he)
    · cases h
  · rintro ⟨o, h1, h2, h3, h4⟩
    rw [matcher_of_mem hc h1 h2]
    unfold active
    rw [if_pos]
    · exact h3
    · rw [enabled_iff]
      intro h5
      rw [h5, List.mem_singleton] at h3
      exact h4 h3

theorem count_one {k : Kind} {l : List Opt} (hc : count k l ≤ 1) {o : Opt} (hk : o.kind = k)
    (hu : ∀ p : Opt, p.kind = k → p = o) : count k l = 1 ↔ o ∈ l := by
  have : 0 < count k l ↔ o ∈ l := by
    unfold count
    rw [List.length_pos_iff_exists_mem]
    constructor
    · rintro ⟨p, hp⟩
      rw [List.mem_filter] at hp
      rw [← hu p (by simpa using hp.2)]; exact hp.1
    · intro h; exact ⟨o, List.mem_filter.mpr ⟨h, by simpa using hk⟩⟩
  rw [← this]
  omega

theorem active_trim {l : List Opt} {k : Kind} (ht : enabled (matcher .trim l) = true → enabled (matcher k l) = false)
    (x : Byte) : x ∈ active (if enabled (matcher .trim l) then matcher .trim l else matcher k l) ↔
      x ∈ active (matcher .trim l) ∨ x ∈ active (matcher k l) := by
  by_cases h : enabled (matcher .trim l) = true
  · rw [if_pos h]
    simp [active, h, ht h]
  · rw [if_neg h]
    simp [active, h]

/-- C43: a setup that compiles means exactly what its options say, each taken by itself. -/
theorem C43_meaning {l : List Opt} (hl : compiles l = true) : Means l (resolve l) := by
  obtain ⟨⟨a1, a2, a3, a4, a5⟩, ⟨b1, b2, b3, b4, b5⟩, -, -, e, ⟨f, g⟩, -⟩ := (compiles_iff l).mp hl
  have hth := count_one (k := .throwOnError) (l := l) (by omega) (o := .throwOnError) rfl (by intro p hp; cases p <;> simp [Opt.kind] at hp ⊢)
  have hst := count_one (k := .stringError) (l := l) (by omega) (o := .stringError) rfl (by intro p hp; cases p <;> simp [Opt.kind] at hp ⊢)
  refine ⟨?_, ?_, ?_, ?_, ?_, ?_, ?_, ?_, ?_, ?_, ?_⟩
  · intro q
    have hm := mem_active a1 b1
    have hle : (active (matcher .quote l)).length ≤ 1 := by
      unfold active
      split
      · rcases matcher_cases (k := .quote) (l := l) with ⟨o, h1, h2, h3⟩ | ⟨_, h3⟩
        · rw [h3]; cases o <;> simp [Opt.kind] at h2 ⊢; simp [Opt.chars]
        · rw [h3]; simp
      · simp
    have h1 : (resolve l).quote = some q ↔ q ∈ active (matcher .quote l) := by
      show (active (matcher .quote l)).head? = some q ↔ _
      match hA : active (matcher .quote l), hle with
      | [], _ => simp
      | [y], _ => simp [eq_comm]
    rw [h1, hm]
    constructor
    · rintro ⟨o, h1, h2, h3, h4⟩
      cases o <;> simp [Opt.kind] at h2
      simp only [Opt.chars, List.mem_singleton] at h3
      subst h3; exact ⟨h1, h4⟩
    · rintro ⟨h1, h2⟩
      exact ⟨_, h1, rfl, by simp [Opt.chars], h2⟩
  · intro x
    refine (mem_active a2 b2 x).trans ⟨?_, ?_⟩
    · rintro ⟨o, h1, h2, h3⟩
      cases o <;> simp [Opt.kind] at h2
      exact ⟨_, h1, h3⟩
    · rintro ⟨cs, h1, h2⟩; exact ⟨_, h1, rfl, h2⟩
  · intro x
    refine (active_trim (fun h => (e h).1) x).trans ?_
    rw [mem_active a3 b3, mem_active a4 b4]
    constructor
    · rintro (⟨o, h1, h2, h3⟩ | ⟨o, h1, h2, h3⟩) <;> cases o <;> simp [Opt.kind] at h2
      · exact ⟨_, .inl h1, h3⟩
      · exact ⟨_, .inr h1, h3⟩
    · rintro ⟨cs, h1 | h1, h2⟩
      · exact .inl ⟨_, h1, rfl, h2⟩
      · exact .inr ⟨_, h1, rfl, h2⟩
  · intro x
    refine (active_trim (fun h => (e h).2) x).trans ?_
    rw [mem_active a3 b3, mem_active a5 b5]
    constructor
    · rintro (⟨o, h1, h2, h3⟩ | ⟨o, h1, h2, h3⟩) <;> cases o <;> simp [Opt.kind] at h2
      · exact ⟨_, .inl h1, h3⟩
      · exact ⟨_, .inr h1, h3⟩
    · rintro ⟨cs, h1 | h1, h2⟩
      · exact .inl ⟨_, h1, rfl, h2⟩
      · exact .inr ⟨_, h1, rfl, h2⟩
  · constructor
    · intro h
      have h : (getMultiline l).2 = true := h
      rcases getMultiline_mem (l := l) with h' | h'
      · rw [h'] at h; cases h
      · rw [h] at h'; exact ⟨_, h'⟩
    · rintro ⟨n, h⟩
      show (getMultiline l).2 = true
      rw [getMultiline_of_mem f h]
  · intro n h
    show (getMultiline l).1 = n
    rw [getMultiline_of_mem f h]
  · rw [← hth]
    simp only [resolve]
    by_cases h1 : count .throwOnError l = 1 <;> by_cases h2 : count .stringError l = 1 <;> simp [h1, h2]
  · rw [← hst]
    simp only [resolve]
    by_cases h1 : count .throwOnError l = 1 <;> by_cases h2 : count .stringError l = 1 <;> simp [h1, h2]
    omega
  · rw [← hst, ← hth]
    simp only [resolve]
    by_cases h1 : count .throwOnError l = 1 <;> by_cases h2 : count .stringError l = 1 <;> simp [h1, h2]
  · rw [← count_eq]; simp [resolve]
  · rw [← count_eq]; simp [resolve]

/-! a legal setup with everything in it, and its meaning -/
example : compiles [.trim (bs " \t"), .escape (bs "\\"), .quote 34, .multiline 3 true, .stringError, .ignoreEmpty] = true ∧
    resolve [.trim (bs " \t"), .escape (bs "\\"), .quote 34, .multiline 3 true, .stringError, .ignoreEmpty] =
      { quote := some 34, escape := bs "\\", trimL := bs " \t", trimR := bs " \t", multiline := true, mlLimit := 3,
        mode := .string, ignoreEmpty := true } := by decide
example : compiles [.quote 34, .escape [34]] = false ∧ compiles [.multiline 0 true] = false ∧
    compiles [.trim (bs " "), .trimLeft (bs "x")] = false ∧ compiles [.stringError, .throwOnError] = false ∧
    compiles [.other] = false ∧ compiles [.escape [92, 0]] = false := by decide

end Ssp.Setup
