import Verif.Proofs.SplitChain
import Verif.Spec.Write
/-!
# Properties of splitting: C01 - C12

Everything here is stated with `Spl.split`, `Spl.resplit` (the model of the code), `Holds`, `Accepts`,
`Rejects`, `Chain` (Spec/Api.lean: what the caller provides and observes) and the text vocabulary of
Spec/Text.lean and Spec/Write.lean.
-/
namespace Ssp
open Spec Spl Text

/-! ## C01 -/

/-- C01: splitting any NUL-terminated line with any NUL-free delimiter terminates (`nofuel` is excluded),
has no undefined behaviour (`ub` is excluded), leaves the terminator, everything behind it and the size of
the storage as they were - both when it returns and when it throws - and leaves the splitter ready for the
next call. -/
theorem C01_split_total_and_safe {c : Cfg} (hc : c.WF) {delim line T : Bytes} {s : Spl}
    (hd0 : NUL ∉ delim) (hs : Holds s line T) :
    ∃ s', (split c delim s = .ok () s' ∨ ∃ m, split c delim s = .exc m s') ∧
      s'.mem.length = s.mem.length ∧ s'.mem.drop line.length = NUL :: T ∧ s'.resplitting = false := by
  by_cases hd : delim = []
  · subst hd
    have hm : s.mem.drop line.length = NUL :: T := by rw [hs.mem]; simp
    simp only [split, splitImplSelectDelim, clearError, M.modify_bind, handleError]
    cases c.mode with
    | throw => exact ⟨_, .inr ⟨_, rfl⟩, rfl, hm, hs.idle⟩
    | bool => exact ⟨_, .inl rfl, rfl, hm, hs.idle⟩
    | string => exact ⟨_, .inl rfl, rfl, hm, hs.idle⟩
  · obtain ⟨s', h1, h2⟩ := split_total hc hd hd0 hs
    refine ⟨s', h1, h2.len, ?_, h2.resplitting.trans hs.idle⟩
    rw [h2.suf]
    show s.mem.drop line.length = _
    rw [hs.mem]; simp

/-- The state left behind by a call, however it ended. -/
def Res.state? {σ α : Type} : Res σ α → Option σ
  | .ok _ s => some s
  | .exc _ s => some s
  | _ => none

/-- Use one splitter object for a list of lines (each in its own storage, with its own delimiter and
trailing bytes), whatever happened to the previous ones. -/
def splitAll (c : Cfg) : List (Bytes × Bytes × Bytes) → Spl → Option Spl
  | [], s => some s
  | (delim, line, T) :: ls, s =>
    match (split c delim { s with mem := line ++ NUL :: T, gen := s.gen + 1 }).state? with
    | some s' => splitAll c ls s'
    | none => none

/-- C01, for the whole life of a splitter object. -/
theorem C01_split_history {c : Cfg} (hc : c.WF) (ls : List (Bytes × Bytes × Bytes))
    (h : ∀ x ∈ ls, NUL ∉ x.1 ∧ NUL ∉ x.2.1) : ∃ s, splitAll c ls {} = some s := by
  suffices ∀ s : Spl, s.resplitting = false → ∃ s', splitAll c ls s = some s' from this {} rfl
  induction ls with
  | nil => intro s _; exact ⟨s, rfl⟩
  | cons x ls ih =>
    intro s hs
    obtain ⟨delim, line, T⟩ := x
    obtain ⟨h1, h2⟩ := h (delim, line, T) (by simp)
    obtain ⟨s', e, _, _, e4⟩ := C01_split_total_and_safe hc (s := { s with mem := line ++ NUL :: T, gen := s.gen + 1 })
      h1 ⟨rfl, h2, hs⟩
    have : (split c delim { s with mem := line ++ NUL :: T, gen := s.gen + 1 }).state? = some s' := by
      rcases e with e | ⟨m, e⟩ <;> rw [e] <;> rfl
    simp only [splitAll, this]
    exact ih (fun y hy => h y (by simp [hy])) s' e4

/-- A setup with everything enabled, used as the non-trivial case below:
`quote<'"'>, escape<'\\'>, trim<' ','\t'>, string_error`. -/
def fullCfg : Cfg := { quote := some 34, escape := [92], trimL := [32, 9], trimR := [32, 9], mode := .string }

theorem fullCfg_wf : fullCfg.WF := by constructor <;> simp [fullCfg] <;> decide

example : Holds { mem := bs "a, \"b\"\"c\" ,d\\,e" ++ NUL :: bs "junk" } (bs "a, \"b\"\"c\" ,d\\,e") (bs "junk") :=
  ⟨rfl, by decide, rfl⟩
example : (split fullCfg (bs ",") { mem := bs "a, \"b\"\"c\" ,d\\,e" ++ NUL :: bs "junk" }).state?.map (·.columns) =
    some [bs "a", bs "b\"c", bs "d,e"] := by decide +kernel

/-! ## C02 -/

/-- C02: the fields reported by a plain split, joined with the delimiter, are the line, and none contains
the delimiter. -/
theorem C02_join_of_split {c : Cfg} (hc : c.WF) {delim line T : Bytes} {s : Spl}
    (hq : c.quote = none) (he : c.escape = []) (hl : c.trimL = []) (hr : c.trimR = [])
    (hd : delim ≠ []) (hd0 : NUL ∉ delim) (hs : Holds s line T) :
    ∃ fs, Accepts c (split c delim s) fs ∧ join delim fs = line ∧ ∀ f ∈ fs, ¬ Occurs delim f := by
  obtain ⟨fs, hf⟩ := cut_exists delim hd _ line (Nat.lt_succ_self _)
  cases delim with
  | nil => exact absurd rfl hd
  | cons d0 ds =>
    have := decodeRow_cut (c := c) hq he (by simp [hl]) (by simp [hr]) hf
    have hmap : fs.map (fun f => trimR c.trimR (trimL c.trimL f)) = fs := by
      conv => rhs; rw [← List.map_id fs]
      apply List.map_congr_left
      intro f _
      simp only [hl, hr, trimL, trimR, List.not_mem_nil, decide_false]
      have hdw : ∀ l : Bytes, l.dropWhile (fun _ => false) = l := by intro l; cases l <;> rfl
      rw [hdw, hdw, List.reverse_reverse]; rfl
    rw [hmap] at this
    exact ⟨fs, split_accepts hc hd hd0 hs this, hf.join, hf.no_delim⟩

theorem nul_join {d : Bytes} (hd : NUL ∉ d) : ∀ {ts : List Bytes}, (∀ t ∈ ts, NUL ∉ t) → NUL ∉ join d ts
  | [], _ => by simp [join]
  | [t], h => by simpa [join] using h t (by simp)
  | t :: t' :: ts, h => by
    have := nul_join hd (ts := t' :: ts) (fun x hx => h x (by simp [hx]))
    have h1 := h t (by simp)
    simp only [join, List.mem_append, not_or]
    exact ⟨⟨h1, hd⟩, this⟩

/-- C02, other direction, for delimiters of any length: fields in which the delimiter cannot start are
reported back. -/
theorem C02_split_of_join {c : Cfg} (hc : c.WF) {delim T : Bytes} {s : Spl} {fs : List Bytes}
    (hq : c.quote = none) (he : c.escape = []) (hl : c.trimL = []) (hr : c.trimR = [])
    (hd : delim ≠ []) (hd0 : NUL ∉ delim) (hne : fs ≠ [])
    (hfs : ∀ f ∈ fs, ¬ Occurs delim (f ++ delim.dropLast)) (hs : Holds s (join delim fs) T) :
    Accepts c (split c delim s) fs := by
  have hf := Cut.of_join hne hfs
  cases delim with
  | nil => exact absurd rfl hd
  | cons d0 ds =>
    have := decodeRow_cut (c := c) hq he (by simp [hl]) (by simp [hr]) hf
    have hmap : fs.map (fun f => trimR c.trimR (trimL c.trimL f)) = fs := by
      conv => rhs; rw [← List.map_id fs]
      apply List.map_congr_left
      intro f _
      simp only [hl, hr, trimL, trimR, List.not_mem_nil, decide_false]
      have hdw : ∀ l : Bytes, l.dropWhile (fun _ => false) = l := by intro l; cases l <;> rfl
      rw [hdw, hdw, List.reverse_reverse]; rfl
    rw [hmap] at this
    exact split_accepts hc hd hd0 hs this

/-- C02, single byte delimiter. -/
theorem C02_split_of_join_byte {c : Cfg} (hc : c.WF) {d : Byte} {T : Bytes} {s : Spl} {fs : List Bytes}
    (hq : c.quote = none) (he : c.escape = []) (hl : c.trimL = []) (hr : c.trimR = [])
    (hd0 : d ≠ NUL) (hne : fs ≠ []) (hfs : ∀ f ∈ fs, d ∉ f) (hs : Holds s (join [d] fs) T) :
    Accepts c (split c [d] s) fs := by
  refine C02_split_of_join hc hq he hl hr (by simp) (by simpa using hd0.symm) hne ?_ hs
  rintro f hf ⟨a, b, h⟩
  apply hfs f hf
  have : f = a ++ [d] ++ b := by simpa using h
  rw [this]; simp

/-- non-vacuity of C02: three fields, one of them empty -/
example : let fs := [bs "a b", bs "", bs "\"c"]
    fs ≠ [] ∧ (∀ f ∈ fs, (44 : Byte) ∉ f) ∧
    Holds { mem := join [44] fs ++ NUL :: bs "x" } (join [44] fs) (bs "x") :=
  ⟨by decide, by decide, rfl, by decide, rfl⟩
theorem occurs_any {d t : Bytes} (h : Occurs d t) :
    ((List.range (t.length + 1)).any fun i => d.isPrefixOf (t.drop i)) = true := by
  obtain ⟨a, b, rfl⟩ := h
  rw [List.any_eq_true]
  refine ⟨a.length, by simp; omega, ?_⟩
  rw [List.append_assoc, List.drop_left]
  exact List.isPrefixOf_iff_prefix.mpr ⟨b, rfl⟩
example : ∀ f ∈ [bs "a:b", bs "", bs "c"], ¬ Occurs (bs "::") (f ++ (bs "::").dropLast) := by
  intro f hf h
  have := occurs_any h
  clear h
  revert f
  decide +kernel
example : split {} (bs ",") { mem := bs "a b,,\"c" ++ NUL :: bs "x" } ≠ .ub := by decide +kernel

/-! ## C03 -/

/-- C03 (splitting): without quote and escape no byte of the storage changes, whether the call returns
or throws. -/
theorem C03_split_const {c : Cfg} (hc : c.WF) {delim line T : Bytes} {s : Spl} (hq : c.quote = none)
    (he : c.escape = []) (hd0 : NUL ∉ delim) (hs : Holds s line T) (h0 : s.escaped = 0) :
    ∃ s', (split c delim s = .ok () s' ∨ ∃ m, split c delim s = .exc m s') ∧ s'.mem = s.mem ∧
      s'.escaped = 0 := by
  obtain ⟨s', h, _⟩ := C01_split_total_and_safe hc hd0 hs
  have := Keeps.split hq he delim s h0
  rcases h with h | ⟨m, h⟩
  · rw [h] at this; exact ⟨s', .inl h, this⟩
  · rw [h] at this; exact ⟨s', .inr ⟨m, h⟩, this⟩

example : let c : Cfg := { trimL := [32], trimR := [32] }
    c.quote = none ∧ c.escape = [] ∧
    Holds { mem := bs " a ,b " ++ NUL :: [] } (bs " a ,b ") [] := ⟨rfl, rfl, rfl, by decide, rfl⟩

/-! ## C04 -/

/-- C04, for every admissible way of writing each field (quoted, with any mixture of doubled quotes and
escapes, or unquoted; with spacing around it): the line made of the texts reports the contents. -/
theorem C04_written_fields_roundtrip {c : Cfg} (hc : c.WF) {d0 : Byte} {ds T : Bytes} {s : Spl}
    {fs ts : List Bytes} (hd : GoodDelim c d0) (hds : NUL ∉ ds) (hne : fs ≠ [])
    (h : Fields c d0 fs ts) (hs : Holds s (join (d0 :: ds) ts) T) :
    Accepts c (split c (d0 :: ds) s) fs :=
  split_accepts hc (by simp) (by simp [hd.nul.symm, hds]) hs (decodeRow_join hc hd hne h)

theorem quoted_flatMap {c : Cfg} {q e : Byte} (hqe : q ∉ c.escape) (he : c.escape ≠ [] → e ∈ c.escape) :
    ∀ f : Bytes, Quoted c q f
      (f.flatMap fun x => if x = q then [q, q] else if x ∈ c.escape then [e, x] else [x])
  | [] => .nil
  | x :: f => by
    have ih := quoted_flatMap hqe he f
    rw [List.flatMap_cons]
    by_cases hx : x = q
    · subst hx; simp only [if_true]; exact .dbl ih
    · by_cases hx' : x ∈ c.escape
      · simp only [hx, hx', if_false, if_true]
        exact .esc (he (by intro h; rw [h] at hx'; cases hx')) ih
      · simp only [hx, hx', if_false]
        exact .raw hx hx' ih

theorem fields_map {c : Cfg} {d0 : Byte} {w : Bytes → Bytes} (h : ∀ f, Field c d0 f (w f)) :
    ∀ fs : List Bytes, Fields c d0 fs (fs.map w)
  | [] => trivial
  | f :: fs => ⟨h f, fields_map h fs⟩

theorem nul_quoteField {c : Cfg} {q e : Byte} {f : Bytes} (hq : q ≠ NUL)
    (he : c.escape ≠ [] → e ≠ NUL) (hf : NUL ∉ f) : NUL ∉ quoteField c q e f := by
  simp only [quoteField, List.cons_append, List.mem_cons, List.mem_append, List.mem_flatMap, List.not_mem_nil,
    or_false, not_or, not_exists, not_and]
  refine ⟨hq.symm, fun x hx => ?_, hq.symm⟩
  split
  · simp [hq.symm]
  · split
    · rename_i h
      have := he (by intro h'; rw [h'] at h; cases h)
      simp only [List.mem_cons, List.not_mem_nil, or_false, not_or]
      exact ⟨this.symm, fun h => hf (h ▸ hx)⟩
    · simpa using fun h : NUL = x => hf (h ▸ hx)

/-- C04, as in the English statement: any non-empty list of NUL-free strings, each written between quotes
(inner quotes doubled, escape characters escaped by `e`), with any spacing `l`/`r` around each field that
the setup trims. -/
theorem C04_quoted_roundtrip {c : Cfg} (hc : c.WF) {q d0 e : Byte} {ds T l r : Bytes} {s : Spl}
    {fs : List Bytes} (hq : c.quote = some q) (he : c.escape ≠ [] → e ∈ c.escape) (hd : GoodDelim c d0)
    (hds : NUL ∉ ds) (hl : Only c.trimL l) (hr : Only c.trimR r) (hne : fs ≠ []) (h0 : ∀ f ∈ fs, NUL ∉ f)
    (hm : s.mem = join (d0 :: ds) (fs.map fun f => l ++ quoteField c q e f ++ r) ++ NUL :: T)
    (hi : s.resplitting = false) :
    Accepts c (split c (d0 :: ds) s) fs := by
  have hw : ∀ f, Field c d0 f (l ++ quoteField c q e f ++ r) := by
    intro f
    have := Field.quoted (d0 := d0) hq hl (quoted_flatMap (e := e) (hc.qe q hq) he f) hr
    simpa [quoteField] using this
  refine C04_written_fields_roundtrip hc hd hds hne (fields_map hw fs) ⟨hm, ?_, hi⟩
  apply nul_join (by simp [hd.nul.symm, hds])
  intro t ht
  obtain ⟨f, hf, rfl⟩ := List.mem_map.mp ht
  have hq0 : q ≠ NUL := fun h => hc.nul_q (h ▸ hq)
  have he0 : c.escape ≠ [] → e ≠ NUL := fun h h' => hc.nul_e (h' ▸ he h)
  simp only [List.mem_append, not_or]
  exact ⟨⟨fun h => hc.nul_l (hl _ h), nul_quoteField hq0 he0 (h0 f hf)⟩, fun h => hc.nul_r (hr _ h)⟩

/-- non-vacuity of C04: contents with delimiter, quote, escape, newline and spacing -/
example : fullCfg.quote = some 34 ∧ GoodDelim fullCfg 44 ∧ Only fullCfg.trimL (bs " \t") ∧
    (∀ f ∈ [bs " a,b\"\\\n", bs ""], NUL ∉ f) :=
  ⟨rfl, ⟨by decide, by decide, by decide, by decide, by decide⟩, by unfold Only; decide, by decide⟩
example : (split fullCfg (bs ",") { mem := join (bs ",") ([bs " a,b\"\\\n", bs ""].map fun f =>
      bs " " ++ quoteField fullCfg 34 92 f ++ bs " ") ++ NUL :: bs "zz" }).state?.map (·.columns) =
    some [bs " a,b\"\\\n", bs ""] := by decide +kernel

/-! ## C05 -/

theorem special_false {c : Cfg} {d0 x : Byte} {ds : Bytes} (h : special c (d0 :: ds) x = false) :
    x ≠ d0 ∧ c.quote ≠ some x ∧ x ∉ c.escape ∧ x ∉ c.trimL ∧ x ∉ c.trimR := by
  simp only [special, List.mem_cons, Bool.or_eq_false_iff, decide_eq_false_iff_not, beq_eq_false_iff_ne, not_or,
    ne_eq] at h
  exact ⟨h.1.1.1.1.1, h.1.1.1.2, h.1.1.2, h.1.2, h.2⟩

theorem plain_escape {c : Cfg} {d0 e : Byte} {ds : Bytes} (he : e ∈ c.escape) :
    ∀ f : Bytes, Plain c d0 f (escapeField c (d0 :: ds) e f)
  | [] => .nil
  | x :: f => by
    have ih := plain_escape (d0 := d0) (ds := ds) he f
    show Plain c d0 (x :: f) (_ ++ escapeField c (d0 :: ds) e f)
    by_cases hx : special c (d0 :: ds) x = true
    · simp only [hx, if_true]; exact .esc he ih
    · simp only [hx]
      have hx' := hx
      simp only [special, List.mem_cons, Bool.or_eq_true, decide_eq_true_eq, beq_iff_eq, not_or] at hx'
      exact Plain.raw (sp := []) (by intro x hx; cases hx) hx'.2 hx'.1.1.2 hx'.1.1.1.1.1 ih

/-- C05: any non-empty list of NUL-free strings, each with an escape character before every special
character. -/
theorem C05_escaped_roundtrip {c : Cfg} (hc : c.WF) {d0 e : Byte} {ds T : Bytes} {s : Spl} {fs : List Bytes}
    (he : e ∈ c.escape) (hd : GoodDelim c d0) (hds : NUL ∉ ds) (hne : fs ≠ []) (h0 : ∀ f ∈ fs, NUL ∉ f)
    (hm : s.mem = join (d0 :: ds) (fs.map (escapeField c (d0 :: ds) e)) ++ NUL :: T)
    (hi : s.resplitting = false) :
    Accepts c (split c (d0 :: ds) s) fs := by
  have hw : ∀ f, Field c d0 f (escapeField c (d0 :: ds) e f) := by
    intro f
    have := Field.plain (l := []) (r := []) (by intro x hx; cases hx) (plain_escape (ds := ds) (d0 := d0) he f)
      (by intro x hx; cases hx) (by
        intro x hx
        cases f with
        | nil => cases hx
        | cons y f =>
          simp only [List.append_nil, escapeField, List.flatMap_cons] at hx
          by_cases hy : special c (d0 :: ds) y = true
          · simp only [hy, if_true, List.cons_append, List.head?_cons, Option.some.injEq] at hx
            subst hx
            exact ⟨fun h => hc.qe _ h he, hc.el _ he⟩
          · simp only [hy, List.cons_append, if_false, List.head?_cons, Option.some.injEq,
              Bool.false_eq_true] at hx
            subst hx
            simp only [special, List.mem_cons, Bool.or_eq_true, decide_eq_true_eq, beq_iff_eq, not_or] at hy
            exact ⟨hy.1.1.1.2, hy.1.2⟩)
    simpa using this
  refine C04_written_fields_roundtrip hc hd hds hne (fields_map hw fs) ⟨hm, ?_, hi⟩
  apply nul_join (by simp [hd.nul.symm, hds])
  intro t ht
  obtain ⟨f, hf, rfl⟩ := List.mem_map.mp ht
  simp only [escapeField, List.mem_flatMap, not_exists, not_and]
  intro x hx
  have hx0 : x ≠ NUL := fun h => h0 f hf (h ▸ hx)
  have he0 : e ≠ NUL := fun h => hc.nul_e (h ▸ he)
  split <;> simp [hx0.symm, he0.symm]

example : (92 : Byte) ∈ fullCfg.escape ∧ (∀ f ∈ [bs " a,b\"\\ ", bs "", bs "x"], NUL ∉ f) := ⟨by decide, by decide⟩
example : (split fullCfg (bs ",") { mem := join (bs ",") ([bs " a,b\"\\ ", bs "", bs "x"].map
      (escapeField fullCfg (bs ",") 92)) ++ NUL :: [] }).state?.map (·.columns) =
    some [bs " a,b\"\\ ", bs "", bs "x"] := by decide +kernel

/-! ## C06 -/

/-- C06: the fields of a trimming setup are those of the same setup without trimming, each with exactly its
leading (trailing) trim characters removed. -/
theorem C06_trim_exact {c : Cfg} (hc : c.WF) {d0 : Byte} {ds line T : Bytes} {s : Spl}
    (hq : c.quote = none) (he : c.escape = []) (hl : d0 ∉ c.trimL) (hr : d0 ∉ c.trimR)
    (hd0 : NUL ∉ d0 :: ds) (hs : Holds s line T) :
    ∃ fs, Accepts { c with trimL := [], trimR := [] } (split { c with trimL := [], trimR := [] } (d0 :: ds) s) fs ∧
      Accepts c (split c (d0 :: ds) s) (fs.map fun f => trimR c.trimR (trimL c.trimL f)) := by
  have hc0 : Cfg.WF { c with trimL := [], trimR := [] } := by
    constructor <;> simp [hq, he]
    rw [Bool.eq_false_iff]
    intro h; rcases hc.ml h with h' | h'
    · exact h' hq
    · exact h' he
  obtain ⟨fs, hf⟩ := cut_exists (d0 :: ds) (by simp) _ line (Nat.lt_succ_self _)
  have e1 := decodeRow_cut (c := c) hq he hl hr hf
  refine ⟨fs, ?_, split_accepts hc (by simp) hd0 hs e1⟩
  obtain ⟨gs, h1, h2, h3⟩ := C02_join_of_split (c := { c with trimL := [], trimR := [] }) hc0 hq he rfl rfl
    (delim := d0 :: ds) (by simp) hd0 hs
  have e2 := decodeRow_cut (c := { c with trimL := [], trimR := [] }) hq he (d0 := d0) (by simp) (by simp) hf
  have hmap : fs.map (fun f => trimR [] (trimL [] f)) = fs := by
    conv => rhs; rw [← List.map_id fs]
    apply List.map_congr_left
    intro f _
    simp only [trimL, trimR, List.not_mem_nil, decide_false]
    have hdw : ∀ l : Bytes, l.dropWhile (fun _ => false) = l := by intro l; cases l <;> rfl
    rw [hdw, hdw, List.reverse_reverse]; rfl
  rw [hmap] at e2
  exact split_accepts hc0 (by simp) hd0 hs e2

example : let c : Cfg := { trimL := [32, 9], trimR := [32] }
    (44 : Byte) ∉ c.trimL ∧ (44 : Byte) ∉ c.trimR ∧ Holds { mem := bs "  a b ,\tc" ++ NUL :: [] } (bs "  a b ,\tc") [] :=
  ⟨by decide, by decide, rfl, by decide, rfl⟩
example : trimR [32] (trimL [32, 9] (bs " \t a b  ")) = bs "a b" := by decide +kernel

/-! ## C07 -/

/-- C07: when `split` returns, the reported ranges lie inside the line, are ordered and do not overlap, and
the bytes in them - read after the whole line has been processed - are the fields of the left-to-right
decoding of the original text.  (When the line ends in an open quote or has a mismatched quote, one more range
is reported; the call is then not valid, or flagged as unterminated.) -/
theorem C07_fields_are_the_decoded_text {c : Cfg} (hc : c.WF) {delim line T : Bytes} {s s' : Spl}
    (hd : delim ≠ []) (hd0 : NUL ∉ delim) (hs : Holds s line T) (h : split c delim s = .ok () s') :
    ∃ ds junk, s'.data = ds ++ junk ∧
      (∀ p ∈ ds, p.1 ≤ p.2 ∧ p.2 ≤ line.length) ∧ ds.Pairwise (fun p q => p.2 ≤ q.1) ∧
      ds.map (fun p => (s'.mem.drop p.1).take (p.2 - p.1)) = (decodeRow c delim line).1 ∧
      (junk ≠ [] → s'.err.valid c.mode = false ∨ s'.unterminatedQuote = true) ∧
      junk.length ≤ 1 := by
  have hpost := split_post hc hd hd0 hs
  rcases loopPost_cases hpost (ErrSt.valid_clear _ _) with ⟨s1, e1, e2, ⟨_, e3⟩, e4, e5⟩ | ⟨m, s1, e1, _⟩
  · rw [h] at e1; cases e1
    cases he : (decodeRow c delim line).2 with
    | openQuote a =>
      rw [he] at e3
      obtain ⟨ds, P, q, G, l1, l2, l3, l4, l5, _⟩ := e3
      have hP : P.length ≤ line.length := by
        have := e2.len
        have hm : (start0 c s).mem = line ++ NUL :: T := hs.mem
        rw [hm, l3] at this
        simp at this; omega
      obtain ⟨i1, i2⟩ := (l1.mono hP).inside
      exact ⟨ds, [(0, P.length + 1)], by simpa [start0] using l4, fun p hp => (i1 p hp).2, i2, l1.columns,
        fun _ => .inr l5, by simp⟩
    | mismatch rem b =>
      rw [he] at e3
      obtain ⟨ds, p, l1, l2, l3, l4⟩ := e3
      obtain ⟨i1, i2⟩ := l1.inside
      refine ⟨ds, [(0, p)], by simpa [start0] using l2, fun p hp => (i1 p hp).2, i2, l1.columns, fun _ => .inl ?_,
        by simp⟩
      rw [e4, he]
      rw [he] at e5
      by_cases hm : c.mode = .throw
      · have := e5 hm; simp [End.stringError] at this
      · simp [hm, End.stringError]
    | eol => rw [he] at e3; obtain ⟨ds, l1, l2, _⟩ := e3; obtain ⟨i1, i2⟩ := l1.inside
             exact ⟨ds, [], by simpa [start0] using l2, fun p hp => (i1 p hp).2, i2, l1.columns, by simp, by simp⟩
    | eolEscape => rw [he] at e3; obtain ⟨ds, l1, l2, _⟩ := e3; obtain ⟨i1, i2⟩ := l1.inside
                   exact ⟨ds, [], by simpa [start0] using l2, fun p hp => (i1 p hp).2, i2, l1.columns, by simp, by simp⟩
    | openEscape => rw [he] at e3; obtain ⟨ds, l1, l2, _⟩ := e3; obtain ⟨i1, i2⟩ := l1.inside
                    exact ⟨ds, [], by simpa [start0] using l2, fun p hp => (i1 p hp).2, i2, l1.columns, by simp, by simp⟩
  · rw [h] at e1; cases e1

/-- C07, corollary: a valid, terminated split reports exactly the decoded fields. -/
theorem C07_valid_columns {c : Cfg} (hc : c.WF) {delim line T : Bytes} {s s' : Spl}
    (hd : delim ≠ []) (hd0 : NUL ∉ delim) (hs : Holds s line T) (h : split c delim s = .ok () s')
    (hv : s'.err.valid c.mode = true) (hu : s'.unterminatedQuote = false) :
    s'.columns = (decodeRow c delim line).1 := by
  obtain ⟨ds, junk, h1, _, _, h4, h5, _⟩ := C07_fields_are_the_decoded_text hc hd hd0 hs h
  have : junk = [] := by
    cases junk with
    | nil => rfl
    | cons x xs => have := h5 (by simp); rw [hv, hu] at this; simp at this
  rw [Spl.columns, h1, this, List.append_nil, h4]

example : decodeRow fullCfg (bs ",") (bs "a\\,b , \"c\"\"d\" ,e") = ([bs "a,b", bs "c\"d", bs "e"], .eol) := by
  decide +kernel

/-! ## C08, C09, C10: bad rows -/

/-- C08: behind any complete row text `p` and a delimiter, a field that opens a quote which is never closed
(`t` writes some contents, with every inner quote doubled or escaped). -/
theorem C08_unterminated_quote {c : Cfg} (hc : c.WF) {q d0 : Byte} {p l t f T : Bytes} {s : Spl}
    {fs : List Bytes} (hml : c.multiline = false) (hq : c.quote = some q) (hd : GoodDelim c d0)
    (hp : decodeRow c [d0] p = (fs, .eol)) (hl : Only c.trimL l) (ht : Quoted c q f t)
    (hs : Holds s (p ++ d0 :: (l ++ q :: t)) T) :
    Rejects c (split c [d0] s) (bs "unterminated quote") ∧
      ∀ s', split c [d0] s = .ok () s' → s'.unterminatedQuote = true := by
  have hqd : q ≠ d0 := fun h => hd.quote (h ▸ hq)
  have h0 : NUL ∉ [d0] := by simpa using hd.nul.symm
  have hdec : decodeRow c [d0] (p ++ d0 :: (l ++ q :: t)) = (fs, .openQuote f) := by
    rw [decodeRow_extend hc hd hp, decodeRow_quoted hc hq hl]
    have := field_quoted_body (ds := []) hc hq hqd ht [] []
    simp only [List.append_nil, List.nil_append] at this
    rw [decode_stop (e := .openQuote f) (by rw [this, field_quoted_eq])]
    simp
  refine ⟨split_rejects hc (by simp) h0 hs hdec (by simp [End.stringError, hml]; rfl)
    (by simp [End.throwError, End.stringError, hml]; rfl), ?_⟩
  intro s' hs'
  rcases split_known hc (by simp) h0 hs with ⟨s1, e1, e2, _⟩ | ⟨m, s1, e1, _⟩
  · rw [hs'] at e1; cases e1
    exact e2.uq_iff.mpr ⟨f, by rw [hdec]⟩
  · rw [hs'] at e1; cases e1

/-- C08 for a row that consists of this field only. -/
theorem C08_unterminated_quote_first {c : Cfg} (hc : c.WF) {q d0 : Byte} {ds l t f T : Bytes} {s : Spl}
    (hml : c.multiline = false) (hq : c.quote = some q) (hd : GoodDelim c d0) (hds : NUL ∉ ds)
    (hl : Only c.trimL l) (ht : Quoted c q f t) (hs : Holds s (l ++ q :: t) T) :
    Rejects c (split c (d0 :: ds) s) (bs "unterminated quote") ∧
      ∀ s', split c (d0 :: ds) s = .ok () s' → s'.unterminatedQuote = true := by
  have hqd : q ≠ d0 := fun h => hd.quote (h ▸ hq)
  have h0 : NUL ∉ d0 :: ds := by simp [hd.nul.symm, hds]
  have hdec : decodeRow c (d0 :: ds) (l ++ q :: t) = ([], .openQuote f) := by
    rw [decodeRow_quoted hc hq hl]
    have := field_quoted_body (ds := ds) hc hq hqd ht [] []
    simp only [List.append_nil, List.nil_append] at this
    exact decode_stop (by rw [this, field_quoted_eq])
  refine ⟨split_rejects hc (by simp) h0 hs hdec (by simp [End.stringError, hml]; rfl)
    (by simp [End.throwError, End.stringError, hml]; rfl), ?_⟩
  intro s' hs'
  rcases split_known hc (by simp) h0 hs with ⟨s1, e1, e2, _⟩ | ⟨m, s1, e1, _⟩
  · rw [hs'] at e1; cases e1
    exact e2.uq_iff.mpr ⟨f, by rw [hdec]⟩
  · rw [hs'] at e1; cases e1

example : fullCfg.multiline = false ∧ decodeRow fullCfg [44] (bs "a, \"x\"\"y\" ") = ([bs "a", bs "x\"y"], .eol) ∧
    Quoted fullCfg 34 (bs "b\"c,d") (bs "b\"\"c,d") ∧
    Holds { mem := (bs "a, \"x\"\"y\" " ++ 44 :: (bs " " ++ 34 :: bs "b\"\"c,d")) ++ NUL :: [] }
      (bs "a, \"x\"\"y\" " ++ 44 :: (bs " " ++ 34 :: bs "b\"\"c,d")) [] :=
  ⟨rfl, by decide +kernel,
    .raw (by decide) (by decide) (.dbl (.raw (by decide) (by decide) (.raw (by decide) (by decide)
      (.raw (by decide) (by decide) .nil)))), rfl, by decide, rfl⟩

/-- C09, unquoted field: behind any complete row text `p` and a delimiter, a field whose text ends in an
active escape character (possibly behind spacing `sp`). -/
theorem C09_unterminated_escape_plain {c : Cfg} (hc : c.WF) {d0 e : Byte} {p l t f sp T : Bytes} {s : Spl}
    {fs : List Bytes} (hml : c.multiline = false) (he : e ∈ c.escape) (hd : GoodDelim c d0)
    (hp : decodeRow c [d0] p = (fs, .eol)) (hl : Only c.trimL l) (ht : Plain c d0 f t) (hsp : Only c.trimR sp)
    (hh : ∀ x, (t ++ sp ++ [e]).head? = some x → c.quote ≠ some x ∧ x ∉ c.trimL)
    (hs : Holds s (p ++ d0 :: (l ++ (t ++ sp ++ [e]))) T) :
    Rejects c (split c [d0] s) (bs "unterminated escape at the end of the line") := by
  have h0 : NUL ∉ [d0] := by simpa using hd.nul.symm
  have hdec : decodeRow c [d0] (p ++ d0 :: (l ++ (t ++ sp ++ [e]))) = (fs ++ [f ++ sp ++ [e]], .eolEscape) := by
    rw [decodeRow_extend hc hd hp, decodeRow_plain hl hh, List.append_assoc]
    have := field_plain_body (ds := []) hc hd ht [] (sp ++ [e])
    rw [decode_last (f := f ++ sp ++ [e]) (e := .eolEscape)]
    rw [this, field_normal_eq, dropWhile_only_append hsp, takeWhile_only_append hsp,
      dropWhile_head_not (hc.er e he), takeWhile_head_not (hc.er e he)]
    have hne : e ≠ d0 := fun h => hd.escape (h ▸ he)
    simp [not_prefix (ds := []) (xs := []) hne, he]
  exact split_rejects hc (by simp) h0 hs hdec (by simp [End.stringError, hml]; rfl)
    (by simp [End.throwError, End.stringError, hml]; rfl)

/-- C09, quoted field. -/
theorem C09_unterminated_escape_quoted {c : Cfg} (hc : c.WF) {q d0 e : Byte} {p l t f T : Bytes} {s : Spl}
    {fs : List Bytes} (hml : c.multiline = false) (hq : c.quote = some q) (he : e ∈ c.escape)
    (hd : GoodDelim c d0) (hp : decodeRow c [d0] p = (fs, .eol)) (hl : Only c.trimL l) (ht : Quoted c q f t)
    (hs : Holds s (p ++ d0 :: (l ++ q :: (t ++ [e]))) T) :
    Rejects c (split c [d0] s) (bs "unterminated escape at the end of the line") := by
  have hqd : q ≠ d0 := fun h => hd.quote (h ▸ hq)
  have h0 : NUL ∉ [d0] := by simpa using hd.nul.symm
  have hdec : decodeRow c [d0] (p ++ d0 :: (l ++ q :: (t ++ [e]))) = (fs ++ [], .openEscape) := by
    rw [decodeRow_extend hc hd hp, decodeRow_quoted hc hq hl]
    have := field_quoted_body (ds := []) hc hq hqd ht [] [e]
    have hqe : c.quote ≠ some e := fun h => hc.qe e h he
    rw [decode_stop (e := .openEscape) (by rw [this, field_quoted_eq]; simp [hqe, he])]
  exact split_rejects hc (by simp) h0 hs hdec (by simp [End.stringError, hml]; rfl)
    (by simp [End.throwError, End.stringError, hml]; rfl)

example : (92 : Byte) ∈ fullCfg.escape ∧ Plain fullCfg 44 (bs "b,") (bs "b\\,") ∧
    decodeRow fullCfg [44] (bs "x,y") = ([bs "x", bs "y"], .eol) ∧
    Holds { mem := (bs "x,y" ++ 44 :: ([] ++ (bs "b\\," ++ bs " " ++ [92]))) ++ NUL :: [] }
      (bs "x,y" ++ 44 :: ([] ++ (bs "b\\," ++ bs " " ++ [92]))) [] :=
  ⟨by decide, Plain.raw (sp := []) (by unfold Only; decide) (by decide) (by decide) (by decide) (.esc (by decide) .nil),
    by decide +kernel, rfl, by decide, rfl⟩

/-- C10: behind any complete row text `p` and a delimiter, a quoted field whose closing quote is followed
- after optional spacing `r` - by something (`z`) that is neither the end of the line, nor a delimiter, nor
directly another quote.  The reported position is the offset of the closing quote.

Partial: `z` is not an escape character.  Behind a closing quote an escape character makes the reported
position one too high (`C10_position_off_by_one`), makes throw_on_error report another cause when it ends the line
(`C10_throw_other_cause`), and an escaped quote there is taken for a doubled quote (`C10_escaped_quote_is_doubled`). -/
theorem C10_mismatched_quote_partial {c : Cfg} (hc : c.WF) {q d0 z : Byte} {p l t f r w T : Bytes} {s : Spl}
    {fs : List Bytes} (hq : c.quote = some q) (hd : GoodDelim c d0)
    (hp : decodeRow c [d0] p = (fs, .eol)) (hl : Only c.trimL l) (ht : Quoted c q f t) (hr : Only c.trimR r)
    (hz1 : z ∉ c.trimR) (hz2 : z ≠ d0) (hz3 : r = [] → z ≠ q) (hz4 : z ∉ c.escape)
    (hs : Holds s (p ++ d0 :: (l ++ q :: (t ++ q :: (r ++ z :: w)))) T) :
    Rejects c (split c [d0] s)
      (bs "mismatched quote at position: " ++ dec (p ++ d0 :: (l ++ q :: t)).length) := by
  have hqd : q ≠ d0 := fun h => hd.quote (h ▸ hq)
  have h0 : NUL ∉ [d0] := by simpa using hd.nul.symm
  have hdec : decodeRow c [d0] (p ++ d0 :: (l ++ q :: (t ++ q :: (r ++ z :: w)))) =
      (fs ++ [], .mismatch (q :: (r ++ z :: w)).length false) := by
    rw [decodeRow_extend hc hd hp, decodeRow_quoted hc hq hl]
    have := field_quoted_body (ds := []) hc hq hqd ht [] (q :: (r ++ z :: w))
    rw [decode_stop (e := .mismatch (q :: (r ++ z :: w)).length false)]
    rw [this, field_quoted_eq]
    simp only [hq, ne_eq, not_true_eq_false, if_false, dropWhile_only_append hr, dropWhile_head_not hz1,
      not_prefix (ds := []) hz2, Bool.false_eq_true]
    cases r with
    | nil =>
      have := hz3 rfl
      simp [this, hz4]
    | cons y r =>
      have hy : y ∈ c.trimR := hr y (by simp)
      have hyq : y ≠ q := fun h => hc.qr q hq (h ▸ hy)
      have hye : y ∉ c.escape := fun h => hc.er y h hy
      simp [hyq, hye, hz4]
  have hlen : (p ++ d0 :: (l ++ q :: (t ++ q :: (r ++ z :: w)))).length - (q :: (r ++ z :: w)).length =
      (p ++ d0 :: (l ++ q :: t)).length := by simp; omega
  refine split_rejects hc (by simp) h0 hs hdec ?_ ?_
  · simp only [End.stringError, hlen]; rfl
  · simp only [End.throwError, End.stringError, hlen]; rfl

example : decodeRow fullCfg [44] (bs "x,y") = ([bs "x", bs "y"], .eol) ∧ Only fullCfg.trimR (bs " ") ∧
    Quoted fullCfg 34 (bs "b\"") (bs "b\"\"") ∧ (120 : Byte) ∉ fullCfg.trimR :=
  ⟨by decide +kernel, by unfold Only; decide, .raw (by decide) (by decide) (.dbl .nil), by decide⟩

/-- The code reports position 5 for the quote at offset 4 of `"abc"\x`. -/
theorem C10_position_off_by_one :
    (split fullCfg (bs ",") { mem := bs "\"abc\"\\x" ++ NUL :: [] }).state?.map (·.err.msg) =
      some (bs "mismatched quote at position: 5") := by decide +kernel

/-- For the line `"abc"\` string_error reports a mismatched quote, throw_on_error throws an unterminated
escape. -/
theorem C10_throw_other_cause :
    (split fullCfg (bs ",") { mem := bs "\"abc\"\\" ++ NUL :: [] }).state?.map (·.err.msg) =
      some (bs "mismatched quote at position: 4") ∧
    (∃ s, split { fullCfg with mode := .throw } (bs ",") { mem := bs "\"abc\"\\" ++ NUL :: [] } =
      .exc (bs "unterminated escape at the end of the line") s) := by
  refine ⟨by decide +kernel, ?_⟩
  have : (match split { fullCfg with mode := .throw } (bs ",") { mem := bs "\"abc\"\\" ++ NUL :: [] } with
    | .exc m _ => m == bs "unterminated escape at the end of the line"
    | _ => false) = true := by decide +kernel
  revert this
  generalize split { fullCfg with mode := .throw } (bs ",") { mem := bs "\"abc\"\\" ++ NUL :: [] } = r
  cases r with
  | exc m s => intro h; exact ⟨s, by simp at h; rw [h]⟩
  | _ => intro h; cases h

/-- `"a"\"b"` is accepted as the single field `a"b`. -/
theorem C10_escaped_quote_is_doubled :
    (split fullCfg (bs ",") { mem := bs "\"a\"\\\"b\"" ++ NUL :: [] }).state?.map
      (fun s => (s.err.valid .string, s.columns)) = some (true, [bs "a\"b"]) := by decide +kernel

/-! ## C11 -/

/-- C11, the part that holds: unquoted fields in which no escape character stands directly behind unescaped
right-trim spacing.  Every escape character is dropped and the character behind it is kept, whatever it is.

Partial: the excluded place, see `C11_trim_right_keeps_the_escape`. -/
theorem C11_escape_partial {c : Cfg} (hc : c.WF) {d0 : Byte} {ds T : Bytes} {s : Spl} {fs ts : List Bytes}
    (hd : GoodDelim c d0) (hds : NUL ∉ ds) (hne : fs ≠ [])
    (h : Fields c d0 fs ts) (hs : Holds s (join (d0 :: ds) ts) T) :
    Accepts c (split c (d0 :: ds) s) fs :=
  C04_written_fields_roundtrip hc hd hds hne h hs

/-- Text of an unquoted field in which ordinary bytes stand for themselves and an escape character for the
byte behind it. -/
inductive Escaped (c : Cfg) (delim : Bytes) : Bytes → Bytes → Prop
  | nil : Escaped c delim [] []
  | raw {x f t} : special c delim x = false → Escaped c delim f t → Escaped c delim (x :: f) (x :: t)
  | esc {e x f t} : e ∈ c.escape → Escaped c delim f t → Escaped c delim (x :: f) (e :: x :: t)

/-- C11 without spacing of any kind in the unescaped text (in particular for every setup without trim_right, where
`special` does not restrict spacing): anything can be escaped anywhere. -/
theorem C11_escape_anywhere_partial {c : Cfg} (hc : c.WF) {d0 : Byte} {ds f t T : Bytes} {s : Spl}
    (hd : GoodDelim c d0) (hds : NUL ∉ ds) (h : Escaped c (d0 :: ds) f t) (hs : Holds s t T) :
    Accepts c (split c (d0 :: ds) s) [f] := by
  have hpl : Plain c d0 f t := by
    clear hs
    induction h with
    | nil => exact .nil
    | raw hx _ ih =>
      obtain ⟨h1, _, h3, _, h5⟩ := special_false hx
      exact Plain.raw (sp := []) (by intro x hx; cases hx) h5 h3 h1 ih
    | esc he _ ih => exact .esc he ih
  have hfield : Field c d0 f t := by
    have := Field.plain (l := []) (r := []) (by intro x hx; cases hx) hpl
      (by intro x hx; cases hx) (by
        intro x hx
        simp only [List.append_nil] at hx
        cases h with
        | nil => cases hx
        | raw hx' _ =>
          cases hx
          obtain ⟨_, h2, _, h4, _⟩ := special_false hx'
          exact ⟨h2, h4⟩
        | esc he _ => cases hx; exact ⟨fun h => hc.qe _ h he, hc.el _ he⟩)
    simpa using this
  exact C04_written_fields_roundtrip (fs := [f]) (ts := [t]) hc hd hds (by simp) ⟨hfield, trivial⟩ hs

example : Escaped { escape := [92] } (bs ",") (bs "a ,b\\") (bs "a \\,b\\\\") :=
  .raw (by decide) (.raw (by decide) (.esc (by decide) (.raw (by decide) (.esc (by decide) .nil))))

/-- The full C11 is false: with escape and trim_right the field `a \b` is reported as `a\b` - the space is
dropped and the escape character is kept. -/
theorem C11_trim_right_keeps_the_escape :
    (split { escape := [92], trimR := [32] } (bs ",") { mem := bs "a \\b" ++ NUL :: [] }).state?.map
      (fun s => (s.err.valid .bool, s.columns)) = some (true, [bs "a\\b"]) := by decide +kernel

/-! ## C12 -/

/-- C12: splitting in any number of pieces ends like splitting the whole text at once - it throws in the same
cases, agrees on validity and on the unterminated-quote flag, and reports the same columns.

Partial: the text of the error (a mismatched quote is the only one possible here) can name another position,
because the code counts from the beginning of the already compacted line: `C12_position_differs`. -/
theorem C12_split_in_pieces_partial {c : Cfg} (hc : c.WF) {delim text T : Bytes} {res : Res Spl Unit} {s0 : Spl}
    (hd : delim ≠ []) (hd0 : NUL ∉ delim) (hml : c.multiline = true)
    (h : Chain c delim text res) (hs : Holds s0 text T) :
    (∃ s1 s2, res = .ok () s1 ∧ split c delim s0 = .ok () s2 ∧
      s1.err.valid c.mode = s2.err.valid c.mode ∧ s1.unterminatedQuote = s2.unterminatedQuote ∧
      (s2.err.valid c.mode = true → s2.unterminatedQuote = false → s1.columns = s2.columns)) ∨
    (∃ m1 m2 s1 s2, res = .exc m1 s1 ∧ split c delim s0 = .exc m2 s2) := by
  obtain ⟨_, hk⟩ := chain_known hc hd hd0 hml h
  rcases hk with ⟨s1, e1, k1, t1⟩ | ⟨m1, s1, e1, h1, n1⟩ <;>
    rcases split_known hc hd hd0 hs with ⟨s2, e2, k2, _, _, _, _, t2⟩ | ⟨m2, s2, e2, h2, n2⟩
  · refine .inl ⟨s1, s2, e1, e2, ?_, ?_, ?_⟩
    · rw [k1.2.2, k2.2.2]
    · rw [Bool.eq_iff_iff, k1.uq_iff, k2.uq_iff]
    · intro hv hu
      have hmm : ∀ r b, (decodeRow c delim text).2 ≠ .mismatch r b := by
        intro r b hrb
        rw [k2.2.2, hrb] at hv
        by_cases hm : c.mode = .throw
        · have := t2 hm; rw [hrb] at this; simp [End.stringError] at this
        · simp [hm, End.stringError] at hv
      rw [k2.columns hu hmm, k1.columns _ hmm]
      rw [Bool.eq_false_iff]
      intro hu1
      obtain ⟨a, ha⟩ := k1.uq_iff.mp hu1
      rw [k2.uq_iff.mpr ⟨a, ha⟩] at hu; cases hu
  · exact absurd (t1 h2) n2
  · exact absurd (t2 h1) n1
  · exact .inr ⟨m1, m2, s1, s2, e1, e2⟩

/-- `multiline`, quote and escape -/
def mlCfg : Cfg := { quote := some 34, escape := [92], multiline := true, mode := .string }

theorem mlCfg_wf : mlCfg.WF := by constructor <;> simp [mlCfg] <;> decide

/-- The splitter after the first piece `a,"b\"` of a row. -/
def mlFirst : Spl := match split mlCfg (bs ",") { mem := bs "a,\"b\\\"" ++ NUL :: bs "old" } with
  | .ok _ s => s
  | _ => {}

theorem mlFirst_eq : split mlCfg (bs ",") { mem := bs "a,\"b\\\"" ++ NUL :: bs "old" } = .ok () mlFirst := by
  have : (match split mlCfg (bs ",") { mem := bs "a,\"b\\\"" ++ NUL :: bs "old" } with
    | .ok _ _ => true | _ => false) = true := by decide +kernel
  revert this
  unfold mlFirst
  cases split mlCfg (bs ",") { mem := bs "a,\"b\\\"" ++ NUL :: bs "old" } with
  | ok a s => intro _; rfl
  | _ => intro h; cases h

/-- non-vacuity of C12: a chain with one continuation -/
theorem C12_chain_exists : Chain mlCfg (bs ",") (bs "a,\"b\\\"" ++ bs "\nc\",d")
    (resplit mlCfg 11 (bs ",") (mlFirst.extend (bs "\nc\",d") (bs "zz"))) :=
  .more (mlFirst_eq ▸ .first (T := bs "old") ⟨rfl, by decide, rfl⟩) (by decide +kernel) (by decide)
    (.inl ⟨by decide, by intro x hx; cases hx; decide⟩) (by decide +kernel)

example : (resplit mlCfg 11 (bs ",") (mlFirst.extend (bs "\nc\",d") (bs "zz"))).state?.map (·.columns) =
    some [bs "a", bs "b\"\nc", bs "d"] := by decide +kernel
example : Clean mlCfg (bs ",") := ⟨by decide, by intro x hx; cases hx; decide⟩

/-- Where a text may not be cut (`Joint`): with the delimiter `"|`, the text `"a""|b` has the columns `a` and `b`, but when it is
cut before the `|`, the two quotes are a doubled quote in the first piece and the quoted field is not closed in the second. -/
theorem C12_cut_in_delimiter :
    (split mlCfg (bs "\"|") { mem := bs "\"a\"\"|b" ++ NUL :: [] }).state?.map (fun s => (s.unterminatedQuote, s.columns)) =
      some (false, [bs "a", bs "b"]) ∧
    ((split mlCfg (bs "\"|") { mem := bs "\"a\"\"" ++ NUL :: [] }).state?.map fun s =>
      (s.unterminatedQuote, (resplit mlCfg 5 (bs "\"|") (s.extend (bs "|b") [])).state?.map (·.unterminatedQuote))) =
      some (true, some true) := by decide +kernel

/-- The position in the error message depends on where the row was cut: `a,"b\"` + `\nc"x` reports 7, splitting
`a,"b\"\nc"x` at once reports 8. -/
theorem C12_position_differs :
    (resplit mlCfg 11 (bs ",") (mlFirst.extend (bs "\nc\"x") (bs "zz"))).state?.map (·.err.msg) =
      some (bs "mismatched quote at position: 7") ∧
    (split mlCfg (bs ",") { mem := bs "a,\"b\\\"\nc\"x" ++ NUL :: [] }).state?.map (·.err.msg) =
      some (bs "mismatched quote at position: 8") := by decide +kernel

end Ssp
