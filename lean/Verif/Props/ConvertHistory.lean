import Verif.Proofs.SplitFrame
import Verif.Props.ConvertModes
/-!
# A converter has no memory, and the error modes agree: all histories of calls (C23, C24)

These theorems have no restriction on the line: with multiline also lines that end inside a quote are included.
-/
namespace Ssp
open Spec

/-- the columns of the line, as a newly made splitter reports them -/
def newCols (c : Cfg) (delim line : Bytes) : List Bytes :=
  if line = [] then []
  else match Spl.split c delim { mem := line ++ [NUL] } with
    | .ok _ sp => sp.columns
    | _ => []

theorem Twin.columns {T : Bytes} {m m' : ErrMode} {s s' : Spl} (h : Twin T m m' s s') (hr : Readable s) : s'.columns = s.columns := by
  unfold Spl.columns
  rw [h.data]
  apply List.map_congr_left
  intro p hp
  have := hr.inside p hp
  rw [h.mem, List.drop_append_of_le_length (by omega), List.take_append_of_le_length (by rw [List.length_drop]; omega)]

/-- the columns of a used splitter are those of a new one -/
theorem split_newCols {c c' : Cfg} (hcc : TwinCfg c c') (hc : c.WF) {delim line T : Bytes} (hd : delim ≠ []) (hd0 : NUL ∉ delim) {s : Spl} (hs : Holds s line T)
    (hl : line ≠ []) {cols : List Bytes} (hok : splitRes c delim line = .ok cols) {sp : Spl} (h : Spl.split c' delim s = .ok () sp) :
    sp.columns = newCols c delim line := by
  have h0 : Holds { mem := line ++ [NUL] } line [] := ⟨rfl, hs.nul, rfl⟩
  have hfull := split_full hc hd hd0 h0
  have hend : endError c line.length (decodeRow c delim line).2 = none := by
    unfold splitRes at hok
    rw [if_neg hl] at hok
    cases hx : endError c line.length (decodeRow c delim line).2 with
    | none => rfl
    | some m => rw [hx] at hok; cases hok
  rw [hend] at hfull
  obtain ⟨sp0, e1, _, _, _, hread, _⟩ := hfull
  have hrel := Spl.rel_split (T := T) hcc hd (s := { mem := line ++ [NUL] }) (s' := s) (by rw [hs.mem]; simp) rfl hs.idle
  rw [e1] at hrel
  obtain ⟨sp', e2, ht⟩ := hrel
  rw [h] at e2
  cases e2
  unfold newCols
  rw [if_neg hl, e1]
  exact ht.columns hread

namespace Conv

/-- the outcome of `convert(line)` -/
def lineResAll (c : Cfg) (delim : Bytes) (rs : List Req) (sel : List Nat) (ncols : Nat) (line : Bytes) : Except Bytes (List Val) :=
  match splitRes c delim line with
  | .error m => .error m
  | .ok _ => rowResult rs sel ncols (newCols c delim line)

/-- `convert(line)`, for all lines -/
theorem convertLine_all {c : Cfg} (hc : c.WF) {delim line T : Bytes} {s : Conv} {rs : List Req}
    (hd : delim ≠ []) (hd0 : NUL ∉ delim) (hs : Holds s.spl line T)
    (hsel : s.SelOk) (hst : line = [] → s.spl.err.valid c.mode = true) :
    match lineResAll c delim rs s.mappings s.ncols line with
    | .ok vs => Yields c (convertLine c rs delim s) vs
    | .error m => Fails c (convertLine c rs delim s) m := by
  have := convertLine_gen hc (rs := rs) hd hd0 hs hsel hst (f := fun _ => newCols c delim line) (by
    intro sp cols h1 h2
    by_cases hl : line = []
    · subst hl
      rw [split_nil hs] at h2
      have : sp = { s.spl with data := [] } := (congrArg Conv.spl (Res.ok.inj h2).2).symm
      rw [this]
      simp [newCols, Spl.columns]
    · rw [split_cons hl hs] at h2
      unfold onSpl at h2
      cases hx : Spl.split c delim { s.spl with data := [] } with
      | ok u sp' =>
        rw [hx] at h2
        have : sp' = sp := congrArg Conv.spl (Res.ok.inj h2).2
        subst this
        exact split_newCols ⟨rfl, .inl rfl⟩ hc hd hd0 (s := { s.spl with data := [] }) (T := T) ⟨hs.mem, hs.nul, hs.idle⟩ hl h1 hx
      | exc e sp' => rw [hx] at h2; cases h2
      | ub => rw [hx] at h2; cases h2
      | nofuel => rw [hx] at h2; cases h2)
  unfold lineResAll
  cases hr : splitRes c delim line with
  | ok cols => rw [hr] at this; exact this
  | error m => rw [hr] at this; exact this

/-- the columns do not depend on the error mode -/
theorem newCols_mode {c : Cfg} (hc : c.WF) {delim line : Bytes} (hd : delim ≠ []) (hd0 : NUL ∉ delim) (hl0 : NUL ∉ line) {cols : List Bytes}
    (m : ErrMode) (hok : splitRes (c.withMode .throw) delim line = .ok cols) :
    newCols (c.withMode m) delim line = newCols (c.withMode .throw) delim line := by
  by_cases hl : line = []
  · simp [newCols, hl]
  · have h0 : Holds { mem := line ++ [NUL] } line [] := ⟨rfl, hl0, rfl⟩
    have hcc : TwinCfg (c.withMode .throw) (c.withMode m) := ⟨rfl, .inr rfl⟩
    have hct : (c.withMode .throw).WF := by cases hc; constructor <;> assumption
    have hrel := Spl.rel_split (T := []) hcc hd (s := { mem := line ++ [NUL] }) (s' := { mem := line ++ [NUL] }) (by simp) rfl rfl
    have hfull := split_full hct hd hd0 h0
    have hend : endError (c.withMode .throw) line.length (decodeRow (c.withMode .throw) delim line).2 = none := by
      unfold splitRes at hok
      rw [if_neg hl] at hok
      cases hx : endError (c.withMode .throw) line.length (decodeRow (c.withMode .throw) delim line).2 with
      | none => rfl
      | some m => rw [hx] at hok; cases hok
    rw [hend] at hfull
    obtain ⟨sp0, e1, _⟩ := hfull
    rw [e1] at hrel
    obtain ⟨sp', e2, _⟩ := hrel
    rw [← split_newCols hcc hct hd hd0 h0 hl hok e2]
    unfold newCols
    rw [if_neg hl, e2]

/-! ## Histories -/

/-- the converter, about to be given a line in the storage `text` -/
def on (s : Conv) (text : Bytes) : Conv := { s with spl := { s.spl with mem := text, gen := s.spl.gen + 1 } }

/-- `Used c s`: the converter `s` was newly made, and then used for any calls of `split(line)`, `convert<...>(line)` and
`convert<...>()`, each of which returned or threw.  A line is NUL terminated text with arbitrary bytes behind it. -/
inductive Used (c : Cfg) : Conv → Prop
  | new : Used c {}
  | split {s s' : Conv} {line T delim : Bytes} : Used c s → NUL ∉ line → delim ≠ [] → NUL ∉ delim →
      (Conv.split c delim (s.on (line ++ NUL :: T))).state? = some s' → Used c s'
  | convert {s s' : Conv} {line T delim : Bytes} {rs : List Req} : Used c s → NUL ∉ line → delim ≠ [] → NUL ∉ delim →
      (convertLine c rs delim (s.on (line ++ NUL :: T))).state? = some s' → Used c s'
  | again {s s' : Conv} {rs : List Req} : Used c s → (convertCached c rs s).state? = some s' → Used c s'

/-- the operation changes only `error_` -/
def OnlyErr {α : Type} (m : M Conv α) : Prop := ∀ s, ∀ s', (m s).state? = some s' →
  s'.spl = s.spl ∧ s'.mappings = s.mappings ∧ s'.ncols = s.ncols

theorem OnlyErr.bind {α β : Type} {m : M Conv α} {f : α → M Conv β} (h : OnlyErr m) (hf : ∀ a, OnlyErr (f a)) : OnlyErr (m >>= f) := by
  intro s s' hs
  have := h s
  simp only [M.bind_apply] at hs
  cases hm : m s with
  | ok a t =>
    rw [hm] at hs this
    obtain ⟨h1, h2, h3⟩ := this t rfl
    obtain ⟨g1, g2, g3⟩ := hf a t s' hs
    exact ⟨g1.trans h1, g2.trans h2, g3.trans h3⟩
  | exc e t =>
    rw [hm] at hs this
    exact this s' hs
  | ub => rw [hm] at hs; cases hs
  | nofuel => rw [hm] at hs; cases hs

theorem OnlyErr.pure {α : Type} (a : α) : OnlyErr (pure a : M Conv α) := by
  intro s s' h; cases h; exact ⟨rfl, rfl, rfl⟩

theorem OnlyErr.ite {α : Type} {p : Prop} [Decidable p] {m m' : M Conv α} (h : OnlyErr m) (h' : OnlyErr m') :
    OnlyErr (if p then m else m') := by split <;> assumption

theorem onlyErr_get : OnlyErr (M.get : M Conv Conv) := by
  intro s s' h; cases h; exact ⟨rfl, rfl, rfl⟩

theorem onlyErr_handle (c : Cfg) (m : Bytes) : OnlyErr (handleError c m) := by
  intro s s' h
  unfold handleError at h
  cases hm : c.mode <;> rw [hm] at h <;> cases h <;> exact ⟨rfl, rfl, rfl⟩

theorem onlyErr_badSplit (c : Cfg) : OnlyErr (handleErrorBadSplit c) := by
  intro s s' h
  unfold handleErrorBadSplit at h
  cases h
  cases c.mode <;> exact ⟨rfl, rfl, rfl⟩

theorem onlyErr_extractOne (c : Cfg) (r : Req) (p : Nat × Nat) (pos : Nat) (dst : Val) : OnlyErr (extractOne c r p pos dst) := by
  have hx : ∀ t, OnlyErr (extractAt t p dst) := by
    intro t s s' h
    unfold extractAt at h
    split at h
    · cases h
    · cases he : extract s.spl.mem p.1 p.2 t dst with
      | none => rw [he] at h; cases h
      | some r => rw [he] at h; cases h; exact ⟨rfl, rfl, rfl⟩
  have ht : OnlyErr (textOf p) := by
    intro s s' h; cases h; exact ⟨rfl, rfl, rfl⟩
  unfold extractOne
  refine .bind onlyErr_get fun s => .ite (.pure _) ?_
  have key : ∀ t, OnlyErr (do
      let (ok, v) ← extractAt t p dst
      if !ok then
        let text ← textOf p
        handleError c (msgInvalidConversion text pos)
        pure v
      else pure v) :=
    fun t => .bind (hx t) fun r => .ite (.bind ht fun _ => .bind (onlyErr_handle c _) fun _ => .pure _) (.pure _)
  cases r with
  | void => exact .pure _
  | ty t =>
    cases t
    case str => exact .bind (hx _) fun r => .pure _
    all_goals exact key _
  | valid t q m =>
    exact .bind (hx t) fun r => .ite (.bind ht fun _ => .bind (onlyErr_handle c _) fun _ => .pure _)
      (.ite (.bind ht fun _ => .bind (onlyErr_handle c _) fun _ => .pure _) (.pure _))

theorem onlyErr_extractMultiple (c : Cfg) (elems : List (Nat × Nat)) : ∀ (rs : List Req) (i : Nat), OnlyErr (extractMultiple c elems rs i) := by
  have hp : ∀ i, OnlyErr (columnPosition i) := by
    intro i s s' h
    unfold columnPosition at h
    split at h
    · cases h; exact ⟨rfl, rfl, rfl⟩
    · cases he : s.mappings[i]? with
      | none => rw [he] at h; cases h
      | some k => rw [he] at h; cases h; exact ⟨rfl, rfl, rfl⟩
  have he : ∀ i, OnlyErr (elemAt elems i) := by
    intro i s s' h
    unfold elemAt at h
    cases he : elems[i]? with
    | none => rw [he] at h; cases h
    | some k => rw [he] at h; cases h; exact ⟨rfl, rfl, rfl⟩
  intro rs
  induction rs with
  | nil => intro i; exact .pure _
  | cons r rs ih =>
    intro i
    cases r with
    | void => exact ih (i + 1)
    | ty t =>
      exact .bind (hp i) fun k => .bind (he k) fun p => .bind (onlyErr_extractOne c _ p i _) fun v => .bind (ih (i + 1)) fun vs => .pure _
    | valid t q m =>
      exact .bind (hp i) fun k => .bind (he k) fun p => .bind (onlyErr_extractOne c _ p i _) fun v => .bind (ih (i + 1)) fun vs => .pure _

theorem onlyErr_convertImpl (c : Cfg) (rs : List Req) (elems : List (Nat × Nat)) : OnlyErr (convertImpl c rs elems) := by
  unfold convertImpl
  have hcl : OnlyErr (clearError c) := by intro s s' h; cases h; exact ⟨rfl, rfl, rfl⟩
  have hd : ∀ m, OnlyErr (handleError c m >>= fun _ => pure (defaults rs)) := fun m => .bind (onlyErr_handle c m) fun _ => .pure _
  exact .bind hcl fun _ => .bind onlyErr_get fun s =>
    .ite (.bind (onlyErr_badSplit c) fun _ => .pure _)
      (.ite (.ite (hd _) (onlyErr_extractMultiple c elems rs 0)) (.ite (hd _) (.ite (hd _) (onlyErr_extractMultiple c elems rs 0))))

/-- what every converter in use satisfies -/
structure Idle (s : Conv) : Prop where
  spl : s.spl.resplitting = false
  sel : s.mappings = []
  ncols : s.ncols = 0

theorem OnlyErr.idle {α : Type} {m : M Conv α} (h : OnlyErr m) {s s' : Conv} (hs : s.Idle) (hr : (m s).state? = some s') : s'.Idle := by
  obtain ⟨h1, h2, h3⟩ := h s s' hr
  exact ⟨by rw [h1]; exact hs.spl, by rw [h2]; exact hs.sel, by rw [h3]; exact hs.ncols⟩

theorem split_idle {c : Cfg} (hc : c.WF) {delim line T : Bytes} {s s' : Conv} (hd : delim ≠ []) (hd0 : NUL ∉ delim) (hs : Holds s.spl line T)
    (hi : s.Idle) (h : (split c delim s).state? = some s') : s'.Idle := by
  obtain ⟨sp, hk, hsp⟩ := split_spec hc hd hd0 hs
  have key : ∀ {r : Res Conv Unit}, r.state? = some s' → (r = .ok () { s with spl := sp } ∨ ∃ m, r = .exc m { s with spl := sp }) → s'.Idle := by
    rintro r h (rfl | ⟨m, rfl⟩) <;> (cases h; exact ⟨hk.idle.trans hi.spl, hi.sel, hi.ncols⟩)
  apply key h
  cases hr : splitRes c delim line with
  | ok cols => rw [hr] at hsp; exact .inl hsp.1
  | error m =>
    rw [hr] at hsp
    obtain ⟨_, hsp⟩ := hsp
    split at hsp
    · exact .inr ⟨_, hsp.1⟩
    · exact .inl hsp.1

theorem Used.idle {c : Cfg} (hc : c.WF) {s : Conv} (h : Used c s) : s.Idle := by
  have hon : ∀ {s : Conv} {line T : Bytes}, s.Idle → NUL ∉ line → Holds (s.on (line ++ NUL :: T)).spl line T :=
    fun hi hl => ⟨rfl, hl, hi.spl⟩
  induction h with
  | new => exact ⟨rfl, rfl, rfl⟩
  | split _ hl hd hd0 hr ih => exact split_idle hc hd hd0 (hon ih hl) ⟨ih.spl, ih.sel, ih.ncols⟩ hr
  | @convert s s' line T delim rs _ hl hd hd0 hr ih =>
    unfold convertLine at hr
    rw [M.bind_apply] at hr
    have hi : (s.on (line ++ NUL :: T)).Idle := ⟨ih.spl, ih.sel, ih.ncols⟩
    have hidle := fun t => split_idle (s' := t) hc hd hd0 (hon (T := T) ih hl) hi
    cases hx : Conv.split c delim (s.on (line ++ NUL :: T)) with
    | ok u t =>
      rw [hx] at hr hidle
      have ht := hidle t rfl
      refine OnlyErr.idle (m := M.get >>= fun s => _) ?_ ht hr
      exact .bind onlyErr_get fun s => .ite (onlyErr_convertImpl c rs _) (.bind (onlyErr_badSplit c) fun _ => .pure _)
    | exc e t =>
      rw [hx] at hr hidle
      exact hidle s' hr
    | ub => rw [hx] at hr; cases hr
    | nofuel => rw [hx] at hr; cases hr
  | @again s s' rs _ hr ih =>
    exact (onlyErr_convertImpl c rs _).idle ih hr

/-- The outcome of `convert(line)` with a used converter. -/
theorem Used.outcome {c : Cfg} (hc : c.WF) {s : Conv} (h : Used c s) {line T delim : Bytes} (hl : NUL ∉ line) (hd : delim ≠ []) (hd0 : NUL ∉ delim)
    {rs : List Req} (hrs : rs ≠ []) :
    match lineResAll c delim rs [] 0 line with
    | .ok vs => Yields c (convertLine c rs delim (s.on (line ++ NUL :: T))) vs
    | .error m => ∃ m', Fails c (convertLine c rs delim (s.on (line ++ NUL :: T))) m' ∧ (line ≠ [] → m' = m) := by
  have hi := h.idle hc
  have hold : Holds (s.on (line ++ NUL :: T)).spl line T := ⟨rfl, hl, hi.spl⟩
  have hsel : (s.on (line ++ NUL :: T)).SelOk := by
    show ∀ i ∈ s.mappings, _
    rw [hi.sel]; intro i hi; cases hi
  by_cases hst : line = [] → s.spl.err.valid c.mode = true
  · have := convertLine_all hc (rs := rs) hd hd0 hold hsel hst
    have e1 : (s.on (line ++ NUL :: T)).mappings = [] := hi.sel
    have e2 : (s.on (line ++ NUL :: T)).ncols = 0 := hi.ncols
    rw [e1, e2] at this
    cases hr : lineResAll c delim rs [] 0 line with
    | ok vs => rw [hr] at this; exact this
    | error m => rw [hr] at this; exact ⟨m, this, fun _ => rfl⟩
  · have hlnil : line = [] := by
      false_or_by_contra
      rename_i hne
      exact hst fun h => absurd h hne
    subst hlnil
    have hv : s.spl.err.valid c.mode = false := by
      cases hx : s.spl.err.valid c.mode with
      | false => rfl
      | true => exact absurd (fun _ => hx) hst
    have hcols : newCols c delim [] = [] := by simp [newCols]
    have hres : ∃ m, lineResAll c delim rs [] 0 [] = .error m := by
      unfold lineResAll
      simp only [splitRes, if_true, hcols]
      unfold rowResult
      cases rs with
      | nil => exact absurd rfl hrs
      | cons r rs => exact ⟨Conv.msgNumberOfColumns (rs.length + 1) 0, by simp⟩
    obtain ⟨m, hm⟩ := hres
    rw [hm]
    refine ⟨s.spl.err.msg, ?_, fun h => absurd rfl h⟩
    have hrun : convertLine c rs delim (s.on ([] ++ NUL :: T)) =
        (handleErrorBadSplit c >>= fun _ => pure (defaults rs)) { s.on (NUL :: T) with spl := { (s.on (NUL :: T)).spl with data := [] } } := by
      unfold convertLine
      rw [M.bind_of_ok (split_nil hold)]
      have : ({ s.on ([] ++ NUL :: T) with spl := { (s.on ([] ++ NUL :: T)).spl with data := [] } } : Conv).spl.err.valid c.mode = false := hv
      simp only [M.get_bind, this, Bool.false_eq_true, if_false]
      rfl
    rw [hrun]
    unfold Fails
    simp only [handleErrorBadSplit, M.modify_bind, M.pure_apply]
    cases hmd : c.mode with
    | throw => rw [hmd] at hv; cases hv
    | string =>
      rw [hmd] at hv
      refine ⟨_, _, rfl, ?_, rfl⟩
      simp only [valid, hmd]
      exact hv
    | bool =>
      refine ⟨_, _, rfl, ?_⟩
      simp only [valid, hmd]
      rfl

end Conv

/-! ## C23, C24 -/

variable {c : Cfg} {delim line T : Bytes} {rs : List Req}

/-- C23: the validity and the values of `convert(line)` do not depend on what the converter was used for before, nor on the
bytes behind the line: they are those of a newly made converter. -/
theorem C23_no_memory (hc : c.WF) (hd : delim ≠ []) (hd0 : NUL ∉ delim) (hl : NUL ∉ line) (hrs : rs ≠ []) {s : Conv} (h : Conv.Used c s) :
    (∀ vs, Yields c (Conv.convertLine c rs delim (s.on (line ++ NUL :: T))) vs ↔
      Yields c (Conv.convertLine c rs delim { spl := { mem := line ++ [NUL] } }) vs) ∧
    ((∃ m, Fails c (Conv.convertLine c rs delim (s.on (line ++ NUL :: T))) m) ↔
      ∃ m, Fails c (Conv.convertLine c rs delim { spl := { mem := line ++ [NUL] } }) m) := by
  have h1 := h.outcome hc (T := T) hl hd hd0 hrs
  have h2 := Conv.convertLine_all hc (rs := rs) hd hd0 (s := { spl := { mem := line ++ [NUL] } }) (T := []) ⟨rfl, hl, rfl⟩ (by intro i hi; cases hi)
    (fun _ => by cases c.mode <;> rfl)
  simp only at h2
  cases hr : Conv.lineResAll c delim rs [] 0 line with
  | ok vs =>
    rw [hr] at h1 h2
    refine ⟨fun ws => ⟨fun h => ?_, fun h => ?_⟩, ⟨?_, ?_⟩⟩
    · cases yields_unique h1 h; exact h2
    · cases yields_unique h2 h; exact h1
    · rintro ⟨m, h⟩; exact absurd h1 (fails_not_yields h)
    · rintro ⟨m, h⟩; exact absurd h2 (fails_not_yields h)
  | error m =>
    rw [hr] at h1 h2
    obtain ⟨m', h1, _⟩ := h1
    refine ⟨fun ws => ⟨fun h => ?_, fun h => ?_⟩, ⟨fun _ => ⟨m, h2⟩, fun _ => ⟨m', h1⟩⟩⟩
    · exact absurd h (fails_not_yields h1)
    · exact absurd h (fails_not_yields h2)

/-- C23: `convert(line)` always returns values or reports an error. -/
theorem C23_total (hc : c.WF) (hd : delim ≠ []) (hd0 : NUL ∉ delim) (hl : NUL ∉ line) (hrs : rs ≠ []) {s : Conv} (h : Conv.Used c s) :
    (∃ vs, Yields c (Conv.convertLine c rs delim (s.on (line ++ NUL :: T))) vs) ∨
    ∃ m, Fails c (Conv.convertLine c rs delim (s.on (line ++ NUL :: T))) m := by
  have h1 := h.outcome hc (T := T) hl hd hd0 hrs
  cases hr : Conv.lineResAll c delim rs [] 0 line with
  | ok vs => rw [hr] at h1; exact .inl ⟨vs, h1⟩
  | error m => rw [hr] at h1; obtain ⟨m', h1, _⟩ := h1; exact .inr ⟨m', h1⟩

/-- C23, for the text of the error: it does not depend on the history either, except on the empty line, see
`C23_stale_error_on_empty_line`. -/
theorem C23_same_error (hc : c.WF) (hd : delim ≠ []) (hd0 : NUL ∉ delim) (hl : NUL ∉ line) (hne : line ≠ []) (hrs : rs ≠ []) {s : Conv}
    (h : Conv.Used c s) (m : Bytes) :
    Fails c (Conv.convertLine c rs delim (s.on (line ++ NUL :: T))) m ↔
      Fails c (Conv.convertLine c rs delim { spl := { mem := line ++ [NUL] } }) m := by
  have h1 := h.outcome hc (T := T) hl hd hd0 hrs
  have h2 := Conv.convertLine_all hc (rs := rs) hd hd0 (s := { spl := { mem := line ++ [NUL] } }) (T := []) ⟨rfl, hl, rfl⟩ (by intro i hi; cases hi)
    (fun _ => by cases c.mode <;> rfl)
  simp only at h2
  cases hr : Conv.lineResAll c delim rs [] 0 line with
  | ok vs =>
    rw [hr] at h1 h2
    exact ⟨fun h => absurd h1 (fails_not_yields h), fun h => absurd h2 (fails_not_yields h)⟩
  | error m0 =>
    rw [hr] at h1 h2
    obtain ⟨m', h1, hm'⟩ := h1
    cases hm' hne
    by_cases hmd : c.mode = .bool
    · unfold Fails at h1 h2 ⊢
      simp only [hmd] at h1 h2 ⊢
      exact ⟨fun _ => h2, fun _ => h1⟩
    · constructor <;> intro h
      · cases fails_unique h1 h hmd; exact h2
      · cases fails_unique h2 h hmd; exact h1

theorem lineResAll_modes (hc : c.WF) (hd : delim ≠ []) (hd0 : NUL ∉ delim) (hl : NUL ∉ line) (rs : List Req) (m1 m2 : ErrMode) :
    (∃ vs, Conv.lineResAll (c.withMode m1) delim rs [] 0 line = .ok vs ∧ Conv.lineResAll (c.withMode m2) delim rs [] 0 line = .ok vs) ∨
    (∃ a b, Conv.lineResAll (c.withMode m1) delim rs [] 0 line = .error a ∧ Conv.lineResAll (c.withMode m2) delim rs [] 0 line = .error b ∧
      (¬ TwoCauses c delim line → a = b)) := by
  unfold Conv.lineResAll
  rcases splitRes_mode (c := c) (line := line) hd m1 m2 with ⟨cols, e1, e2⟩ | ⟨a, b, e1, e2, e3⟩
  · rw [e1, e2]
    have ht : ∃ cols, splitRes (c.withMode .throw) delim line = .ok cols := by
      rcases splitRes_mode (c := c) (line := line) hd m1 .throw with ⟨cols', _, f2⟩ | ⟨a, b, f1, _⟩
      · exact ⟨cols', f2⟩
      · rw [e1] at f1; cases f1
    obtain ⟨cols', ht⟩ := ht
    simp only
    rw [Conv.newCols_mode hc hd hd0 hl m1 ht, Conv.newCols_mode hc hd hd0 hl m2 ht]
    cases hr : rowResult rs [] 0 (newCols (c.withMode .throw) delim line) with
    | ok vs => exact .inl ⟨vs, rfl, rfl⟩
    | error m => exact .inr ⟨m, m, rfl, rfl, fun _ => rfl⟩
  · rw [e1, e2]
    exact .inr ⟨a, b, rfl, rfl, e3⟩

/-- C24: two converters that differ in the error mode, with any histories: `convert` yields the same values for the same
lines and fails for the same lines. -/
theorem C24_modes_same (hc : c.WF) (hd : delim ≠ []) (hd0 : NUL ∉ delim) (hl : NUL ∉ line) (hrs : rs ≠ []) {m1 m2 : ErrMode} {T' : Bytes}
    {s1 s2 : Conv} (h1 : Conv.Used (c.withMode m1) s1) (h2 : Conv.Used (c.withMode m2) s2) :
    (∀ vs, Yields (c.withMode m1) (Conv.convertLine (c.withMode m1) rs delim (s1.on (line ++ NUL :: T))) vs ↔
      Yields (c.withMode m2) (Conv.convertLine (c.withMode m2) rs delim (s2.on (line ++ NUL :: T'))) vs) ∧
    ((∃ m, Fails (c.withMode m1) (Conv.convertLine (c.withMode m1) rs delim (s1.on (line ++ NUL :: T))) m) ↔
      ∃ m, Fails (c.withMode m2) (Conv.convertLine (c.withMode m2) rs delim (s2.on (line ++ NUL :: T'))) m) := by
  have hw : ∀ m, (c.withMode m).WF := fun m => by cases hc; constructor <;> assumption
  have k1 := h1.outcome (hw m1) (T := T) hl hd hd0 hrs
  have k2 := h2.outcome (hw m2) (T := T') hl hd hd0 hrs
  rcases lineResAll_modes hc hd hd0 hl rs m1 m2 with ⟨vs, e1, e2⟩ | ⟨a, b, e1, e2, _⟩
  · rw [e1] at k1; rw [e2] at k2
    refine ⟨fun ws => ⟨fun h => ?_, fun h => ?_⟩, ⟨?_, ?_⟩⟩
    · cases yields_unique k1 h; exact k2
    · cases yields_unique k2 h; exact k1
    · rintro ⟨m, h⟩; exact absurd k1 (fails_not_yields h)
    · rintro ⟨m, h⟩; exact absurd k2 (fails_not_yields h)
  · rw [e1] at k1; rw [e2] at k2
    obtain ⟨_, k1, _⟩ := k1
    obtain ⟨_, k2, _⟩ := k2
    refine ⟨fun ws => ⟨fun h => ?_, fun h => ?_⟩, ⟨fun _ => ⟨_, k2⟩, fun _ => ⟨_, k1⟩⟩⟩
    · exact absurd h (fails_not_yields k1)
    · exact absurd h (fails_not_yields k2)

/-- C24: the text of the exception is the text of `error_msg()` in string_error mode, on every line but the empty one.

Partial: not when a mismatched quote is followed by an escape character at the end of the line (`TwoCauses`), see
`C24_text_differs`, and not for the stale text reported on an empty line (`C23_stale_error_on_empty_line`). -/
theorem C24_modes_same_text_partial (hc : c.WF) (hd : delim ≠ []) (hd0 : NUL ∉ delim) (hl : NUL ∉ line) (hne : line ≠ []) (hrs : rs ≠ []) {T' : Bytes}
    {s1 s2 : Conv} (h1 : Conv.Used (c.withMode .throw) s1) (h2 : Conv.Used (c.withMode .string) s2)
    (htc : ¬ TwoCauses c delim line) (a : Bytes) :
    (∃ s', Conv.convertLine (c.withMode .throw) rs delim (s1.on (line ++ NUL :: T)) = .exc a s') ↔
    (∃ vs s', Conv.convertLine (c.withMode .string) rs delim (s2.on (line ++ NUL :: T')) = .ok vs s' ∧
      s'.valid (c.withMode .string) = false ∧ s'.err.msg = a) := by
  have hw : ∀ m, (c.withMode m).WF := fun m => by cases hc; constructor <;> assumption
  have k1 := h1.outcome (hw _) (T := T) hl hd hd0 hrs
  have k2 := h2.outcome (hw _) (T := T') hl hd hd0 hrs
  show Fails (c.withMode .throw) _ a ↔ Fails (c.withMode .string) _ a
  rcases lineResAll_modes hc hd hd0 hl rs .throw .string with ⟨vs, e1, e2⟩ | ⟨x, y, e1, e2, e3⟩
  · rw [e1] at k1; rw [e2] at k2
    exact ⟨fun h => absurd k1 (fails_not_yields h), fun h => absurd k2 (fails_not_yields h)⟩
  · cases e3 htc
    rw [e1] at k1; rw [e2] at k2
    obtain ⟨_, k1, q1⟩ := k1
    obtain ⟨_, k2, q2⟩ := k2
    cases q1 hne; cases q2 hne
    constructor <;> intro h
    · cases fails_unique k1 h (fun h => by cases h); exact k2
    · cases fails_unique k2 h (fun h => by cases h); exact k1

/-- a converter with a history: a bad line, an open quote with multiline, then more -/
example : let c : Cfg := { quote := some 34, mode := .string, multiline := true }
    ∃ s, Conv.Used c s ∧ c.WF ∧ s.err.msg = bs "mismatched quote at position: 2" := by
  intro c
  let r := Conv.convertLine c [.ty .str] (bs ",") (({} : Conv).on (bs "\"a\"b" ++ NUL :: bs "zz"))
  have hr : ∃ s, r.state? = some s ∧ s.err.msg = bs "mismatched quote at position: 2" := by
    have := Res.ok_of (r := r) (P := fun _ s => s.err.msg = bs "mismatched quote at position: 2") (by decide +kernel)
    obtain ⟨vs, s, h1, h2⟩ := this
    exact ⟨s, by rw [h1]; rfl, h2⟩
  obtain ⟨s, h1, h2⟩ := hr
  exact ⟨s, .convert .new (by decide) (by decide) (by decide) h1, by constructor <;> simp [c] <;> decide, h2⟩

end Ssp
