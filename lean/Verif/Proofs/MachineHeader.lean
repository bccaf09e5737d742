import Verif.Proofs.MachineInv
/-!
# The header functions of the row machine
-/
namespace Ssp
open Spec

/-- The split of the header text. -/
def hdrRes (x : Ctx) (raw : Bytes) : Except Bytes (List Bytes) :=
  let d := decodeRow (Parser.headerCfg x) x.delim (cutNul raw)
  match endError (Parser.headerCfg x) (cutNul raw).length d.2 with
  | some m => .error m
  | none => .ok d.1

theorem headerCfg_wf {x : Ctx} (h : x.cfg.WF) : (Parser.headerCfg x).WF := by
  unfold Parser.headerCfg
  split
  · exact h
  · exact { h with ml := by simp }

theorem headerCfg_mode (x : Ctx) : (Parser.headerCfg x).mode = x.cfg.mode := by
  unfold Parser.headerCfg; split <;> rfl

theorem headerCfg_multiline {x : Ctx} (h : x.wrapped = false ∨ x.cfg.multiline = false) :
    (Parser.headerCfg x).multiline = false := by
  unfold Parser.headerCfg
  rcases h with h | h
  · simp [h]
  · split
    · exact h
    · rfl

def failedHeader (x : Ctx) (m : Bytes) : Bytes := x.fileName ++ bs ": failed header parsing: " ++ m

/-- what `strict_split` does -/
def HdrIs (x : Ctx) (raw : Bytes) (r : Except Bytes (List Bytes)) : Prop :=
  ∀ t : Mach, t.rawHeader = raw →
    match r with
    | .error m => if x.cfg.mode = .throw then Mach.strictSplit x t = .exc (failedHeader x m) t
        else Mach.strictSplit x t = .ok none { t with err := t.err.set x.cfg.mode (failedHeader x m) }
    | .ok cols => ∃ sp, Mach.strictSplit x t = .ok (some sp) t ∧ ∀ t, Mach.columnsOf sp t = .ok cols t

theorem strictSplit_spec {x : Ctx} (hx : x.Ok) (raw : Bytes) :
    ∃ r, (x.wrapped = false ∨ x.cfg.multiline = false → r = hdrRes x raw) ∧ HdrIs x raw r := by
  obtain ⟨T, hT⟩ := cutNul_append_nul raw []
  have hs : Holds ({ mem := raw ++ [NUL] } : Spl) (cutNul raw) T := ⟨hT, cutNul_nul _, rfl⟩
  have h := split_full (headerCfg_wf hx.wf) hx.delim hx.delim0 hs
  have hmode := headerCfg_mode x
  have hml := headerCfg_multiline (x := x)
  have hcol : ∀ sp : Spl, Readable sp → ∀ t, Mach.columnsOf sp t = .ok sp.columns t := by
    intro sp hr t
    unfold Mach.columnsOf
    rw [if_pos fun p hp => ⟨(hr.inside p hp).1, Nat.le_of_lt (hr.inside p hp).2⟩]
    rfl
  unfold hdrRes HdrIs Mach.strictSplit
  simp only
  generalize Parser.headerCfg x = c at *
  cases he : endError c (cutNul raw).length (decodeRow c x.delim (cutNul raw)).2 with
  | some m =>
    rw [he] at h
    obtain ⟨sp, hk, h⟩ := h
    refine ⟨.error m, fun _ => rfl, ?_⟩
    intro t ht
    simp only
    by_cases hth : x.cfg.mode = .throw
    · rw [if_pos (hmode.trans hth)] at h
      rw [if_pos hth, ht, h.1]
      rfl
    · rw [if_neg (by rw [hmode]; exact hth)] at h
      have hv : sp.err.valid x.cfg.mode = false := by
        rw [h.2.1, hmode]; exact ErrSt.valid_set hth (endError_ne_nil he) _
      rw [if_neg hth, ht, h.1]
      simp only [hv, Bool.false_eq_true, if_false]
      simp only [h.2.1, hmode]
      cases hm : x.cfg.mode with
      | throw => exact absurd hm hth
      | string => rfl
      | bool => rfl
  | none =>
    rw [he] at h
    obtain ⟨sp, h1, hk, h2, _, h3, h4⟩ := h
    refine ⟨.ok sp.columns, ?_, ?_⟩
    · intro hw
      simp only
      rw [h4]
      have := (endError_none_iff (n := 0)).mp he
      cases ho : (decodeRow c x.delim (cutNul raw)).2 with
      | openQuote a => rw [ho, hml hw] at this; simp [End.stringError] at this
      | _ => rfl
    · intro t ht
      refine ⟨sp, ?_, hcol sp h3⟩
      rw [ht, h1]
      simp only [h2, hmode, ErrSt.valid_clear, if_true]

/-- an error report of the parser -/
def Mach.Reports (x : Ctx) {α : Type} (r : Res Mach α) (m : Bytes) (v : α) (t : Mach) : Prop :=
  if x.cfg.mode = .throw then r = .exc m t else r = .ok v { t with err := t.err.set x.cfg.mode m }

theorem handleError_reports (x : Ctx) (m : Bytes) (t : Mach) : Mach.Reports x (Mach.handleError x.cfg m t) m () t := by
  unfold Mach.Reports Mach.handleError
  cases h : x.cfg.mode <;> simp

theorem Mach.Reports.bind {x : Ctx} {α β : Type} {r : M Mach α} {m : Bytes} {v : α} {t : Mach} {w : β} {f : α → M Mach β}
    (h : Mach.Reports x (r t) m v t) (hf : ∀ t, f v t = .ok w t) : Mach.Reports x ((r >>= f) t) m w t := by
  unfold Mach.Reports at *
  split at h
  · rename_i hth; rw [if_pos hth, M.bind_of_exc h]
  · rename_i hth; rw [if_neg hth, M.bind_of_ok h, hf]

theorem getHeader_spec {x : Ctx} {r : Except Bytes (List Bytes)} {t : Mach} (h : HdrIs x t.rawHeader r) :
    match r with
    | .error m => Mach.Reports x (Mach.getHeader x t) (failedHeader x m) [] { t with err := t.err.clear x.cfg.mode }
    | .ok cols => Mach.getHeader x t = .ok cols { t with err := t.err.clear x.cfg.mode } := by
  have h := h { t with err := t.err.clear x.cfg.mode } rfl
  unfold Mach.getHeader Mach.clearError Mach.Reports
  simp only [M.modify_bind]
  cases r with
  | error m =>
    simp only at h ⊢
    split
    · rename_i hth
      rw [if_pos hth] at h
      rw [M.bind_of_exc h]
    · rename_i hth
      rw [if_neg hth] at h
      rw [M.bind_of_ok h]
      rfl
  | ok cols =>
    obtain ⟨sp, h1, h2⟩ := h
    simp only
    rw [M.bind_of_ok h1]
    exact h2 _

def duplicate (x : Ctx) (f : Bytes) : Bytes := x.fileName ++ bs ": header contains duplicate: " ++ f

theorem addHeader_ok {x : Ctx} : ∀ {fs : List Bytes} {t : Mach}, (t.header ++ fs).Nodup →
    Mach.addHeader x fs t = .ok () { t with header := t.header ++ fs } := by
  intro fs
  induction fs with
  | nil => intro t _; simp [Mach.addHeader]
  | cons f fs ih =>
    intro t h
    unfold Mach.addHeader
    simp only [M.get_bind]
    have hf : f ∉ t.header := by
      intro hf
      rw [List.nodup_append] at h
      exact h.2.2 f hf f (by simp) rfl
    rw [if_neg hf]
    simp only [M.modify_bind]
    rw [ih (by simpa using h)]
    simp

theorem addHeader_dup {x : Ctx} : ∀ {fs : List Bytes} {t : Mach}, t.header.Nodup → ¬ (t.header ++ fs).Nodup →
    ∃ p f, f ∈ fs ∧ f ∈ t.header ++ p ∧
      if x.cfg.mode = .throw then Mach.addHeader x fs t = .exc (duplicate x f) { t with header := t.header ++ p }
      else Mach.addHeader x fs t = .ok () { t with err := t.err.set x.cfg.mode (duplicate x f), header := [] } := by
  intro fs
  induction fs with
  | nil => intro t h h'; simp at h'; exact absurd h h'
  | cons f fs ih =>
    intro t h h'
    unfold Mach.addHeader
    simp only [M.get_bind]
    by_cases hf : f ∈ t.header
    · refine ⟨[], f, by simp, by simp [hf], ?_⟩
      rw [if_pos hf]
      have := handleError_reports x (duplicate x f) t
      unfold Mach.Reports at this
      split
      · rename_i hth
        rw [if_pos hth] at this
        unfold duplicate at this ⊢
        rw [M.bind_of_exc this]; simp
      · rename_i hth
        rw [if_neg hth] at this
        unfold duplicate at this ⊢
        rw [M.bind_of_ok this]; rfl
    · rw [if_neg hf]
      simp only [M.modify_bind]
      obtain ⟨p, g, h1, h2, h3⟩ := ih (t := { t with header := t.header ++ [f] })
        (by simp only; rw [List.nodup_append]; refine ⟨h, by simp, ?_⟩; intro a ha b hb; simp at hb; rintro rfl; exact hf (hb ▸ ha))
        (by simpa using h')
      refine ⟨f :: p, g, by simp [h1], by simpa using h2, ?_⟩
      split
      · rename_i hth
        rw [if_pos hth] at h3
        simpa using h3
      · rename_i hth
        rw [if_neg hth] at h3
        exact h3

/-- `split_header_data` with an empty header -/
theorem splitHeaderData_spec {x : Ctx} {r : Except Bytes (List Bytes)} {t : Mach} (h : HdrIs x t.rawHeader r)
    (h0 : t.header = []) :
    match r with
    | .error m => Mach.Reports x (Mach.splitHeaderData x t) (failedHeader x m) () t
    | .ok cols =>
      if cols.Nodup then Mach.splitHeaderData x t = .ok () { t with header := cols }
      else ∃ p f, f ∈ cols ∧ f ∈ p ∧
        if x.cfg.mode = .throw then Mach.splitHeaderData x t = .exc (duplicate x f) { t with header := p }
        else Mach.splitHeaderData x t = .ok () { t with err := t.err.set x.cfg.mode (duplicate x f) } := by
  have h := h t rfl
  unfold Mach.splitHeaderData Mach.Reports
  cases r with
  | error m =>
    simp only at h ⊢
    split
    · rename_i hth
      rw [if_pos hth] at h
      rw [M.bind_of_exc h]
    · rename_i hth
      rw [if_neg hth] at h
      rw [M.bind_of_ok h]
      rfl
  | ok cols =>
    obtain ⟨sp, h1, h2⟩ := h
    simp only
    rw [M.bind_of_ok h1]
    simp only
    rw [M.bind_of_ok (h2 t)]
    by_cases hn : cols.Nodup
    · rw [if_pos hn, addHeader_ok (by simpa [h0] using hn), h0]; simp
    · rw [if_neg hn]
      obtain ⟨p, f, e1, e2, e3⟩ := addHeader_dup (x := x) (t := t) (fs := cols) (by simp [h0]) (by simpa [h0] using hn)
      refine ⟨p, f, e1, by simpa [h0] using e2, ?_⟩
      split
      · rename_i hth
        rw [if_pos hth] at e3
        simpa [h0] using e3
      · rename_i hth
        rw [if_neg hth] at e3
        rw [e3, h0]

def usedTwice (x : Ctx) (f : Bytes) : Bytes := x.fileName ++ bs ": given field used multiple times: " ++ f
def notInHeader (x : Ctx) (f : Bytes) : Bytes := x.fileName ++ bs ": header does not contain given field: " ++ f

theorem idxOf?_mem {l : List Bytes} {f : Bytes} (h : f ∈ l) : l.idxOf? f = some (l.idxOf f) := by
  induction l with
  | nil => cases h
  | cons a l ih =>
    rw [List.idxOf?_cons, List.idxOf_cons]
    by_cases ha : a = f
    · simp [ha]
    · rcases List.mem_cons.mp h with h | h
      · exact absurd h.symm ha
      · have hb : (a == f) = false := by simpa using ha
        simp [hb, ih h]

theorem mapFields_ok {x : Ctx} {all : List Bytes} : ∀ {fs : List Bytes} {t : Mach},
    (∀ f ∈ fs, all.count f = 1 ∧ f ∈ t.header) →
    Mach.mapFields x all fs t = .ok (some (fs.map fun f => t.header.idxOf f)) t := by
  intro fs
  induction fs with
  | nil => intro t _; rfl
  | cons f fs ih =>
    intro t h
    have hf := h f (by simp)
    unfold Mach.mapFields
    simp only [hf.1, ne_eq, not_true_eq_false, if_false, M.get_bind]
    have : t.headerIndex f = some (t.header.idxOf f) := by
      unfold Mach.headerIndex
      rw [idxOf?_mem hf.2]
    rw [this]
    simp only
    rw [M.bind_of_ok (ih fun g hg => h g (by simp [hg]))]
    rfl

theorem mapFields_bad {x : Ctx} {all : List Bytes} : ∀ {fs : List Bytes} {t : Mach},
    (¬ ∀ f ∈ fs, all.count f = 1 ∧ f ∈ t.header) →
    ∃ f ∈ fs, (all.count f ≠ 1 ∧ Mach.Reports x (Mach.mapFields x all fs t) (usedTwice x f) none t ∨
      f ∉ t.header ∧ Mach.Reports x (Mach.mapFields x all fs t) (notInHeader x f) none t) := by
  intro fs
  induction fs with
  | nil => intro t h; exact absurd (by simp) h
  | cons f fs ih =>
    intro t h
    by_cases hc : all.count f = 1
    · by_cases hf : f ∈ t.header
      · obtain ⟨g, hg, hr⟩ := ih (t := t) (fun h' => h (by
          intro g hg
          rcases List.mem_cons.mp hg with rfl | hg
          · exact ⟨hc, hf⟩
          · exact h' g hg))
        refine ⟨g, by simp [hg], ?_⟩
        have he : Mach.mapFields x all (f :: fs) t = (Mach.mapFields x all fs >>= fun o => match o with
          | none => pure none
          | some is => pure (some (t.header.idxOf f :: is))) t := by
          conv => lhs; unfold Mach.mapFields
          simp only [hc, ne_eq, not_true_eq_false, if_false, M.get_bind]
          have : t.headerIndex f = some (t.header.idxOf f) := by
            unfold Mach.headerIndex
            rw [idxOf?_mem hf]
          rw [this]
          rfl
        rw [he]
        exact hr.imp (fun h => ⟨h.1, h.2.bind fun t => rfl⟩) (fun h => ⟨h.1, h.2.bind fun t => rfl⟩)
      · refine ⟨f, by simp, .inr ⟨hf, ?_⟩⟩
        unfold Mach.mapFields
        simp only [hc, ne_eq, not_true_eq_false, if_false, M.get_bind]
        have : t.headerIndex f = none := by
          unfold Mach.headerIndex
          exact List.idxOf?_eq_none_iff.mpr hf
        rw [this]
        exact (handleError_reports x _ t).bind fun t => rfl
    · refine ⟨f, by simp, .inl ⟨hc, ?_⟩⟩
      unfold Mach.mapFields
      simp only [hc, ne_eq, not_false_eq_true, if_true]
      exact (handleError_reports x _ t).bind fun t => rfl

end Ssp
