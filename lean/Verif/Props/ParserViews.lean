import Verif.Proofs.Views
import Verif.Props.ParserRows
/-!
# How long the values of a row can be used (C40)
-/
namespace Ssp
open Spec

variable {x : Ctx}

namespace Parser

theorem fail_invalid {m : Bytes} {s s' : Parser} (hm : m ≠ []) (h : handleError x.cfg m s = .ok () s') : s'.valid x.cfg = false := by
  unfold handleError at h
  unfold valid
  cases hc : x.cfg.mode with
  | throw => rw [hc] at h; cases h
  | string => rw [hc] at h; cases h; exact ErrSt.valid_set (by simp) hm _
  | bool => rw [hc] at h; cases h; exact ErrSt.valid_set (by simp) hm _

/-- an error reported by `handle_error_invalid_conversion` -/
theorem hic_invalid {s s' : Parser} (hc : x.cfg.mode ≠ .throw) (h : handleErrorInvalidConversion x s = .ok () s') :
    s'.err.valid x.cfg.mode = false := by
  cases h
  exact ErrSt.valid_set hc (by simp [bs]) _

theorem readLine_err {s s' : Parser} (h : readLine x s = .ok () s') : s'.err = s.err ∧ s'.rd.cur = s.rd.cur := by
  unfold readLine at h
  rw [M.bind_apply] at h
  unfold onRd at h
  have := Reader.readNext_same (x := x) (s := s.rd) (c0 := s.rd.cur) rfl
  cases hr : Reader.readNext x s.rd with
  | ok a r => rw [hr] at this h; cases h; exact ⟨rfl, this⟩
  | exc e r => rw [hr] at h; cases h
  | ub => rw [hr] at h; cases h
  | nofuel => rw [hr] at h; cases h

theorem onCur_ok {α : Type} {m : M Conv α} {a : α} {s s' : Parser} (h : onCur m s = .ok a s') :
    m s.rd.cur.conv = .ok a s'.rd.cur.conv ∧ s'.err = s.err := by
  unfold onCur at h
  cases hm : m s.rd.cur.conv with
  | ok b cv => rw [hm] at h; cases h; exact ⟨rfl, rfl⟩
  | exc e cv => rw [hm] at h; cases h
  | ub => rw [hm] at h; cases h
  | nofuel => rw [hm] at h; cases h

theorem tryCatch_rethrow_ok {α : Type} {m : M Parser α} {a : α} {s s' : Parser}
    (h : tryCatch m (fun e => do readLine x; decorateRethrow x e) s = .ok a s') : m s = .ok a s' := by
  unfold tryCatch at h
  cases hm : m s with
  | ok b u => rw [hm] at h; exact h
  | exc e u =>
    rw [hm] at h
    obtain ⟨_, u2, _, h2⟩ := Conv.ok_bind_ok h
    cases h2
  | ub => rw [hm] at h; cases h
  | nofuel => rw [hm] at h; cases h

/-- a row was returned: its values are those between the pointers of its columns -/
theorem convertRow_reads {rs : List Req} {vs : List Val} {s s' : Parser} (h : convertRow x rs s = .ok vs s')
    (hv : s'.valid x.cfg = true) :
    All2 (Conv.ReadsAt s'.rd.cur.conv) (valued rs 0) vs := by
  unfold convertRow at h
  unfold valid at hv
  have hnt : ∀ (hc : x.cfg.mode ≠ .throw), (do
      let v ← onCur (Conv.convertCached x.cfg rs)
      let s ← M.get
      (if Conv.valid x.cfg s.rd.cur.conv then pure () else handleErrorInvalidConversion x)
      readLine x
      pure v : M Parser (List Val)) s = .ok vs s' → All2 (Conv.ReadsAt s'.rd.cur.conv) (valued rs 0) vs := by
    intro hc h
    obtain ⟨v, u1, h1, h2⟩ := Conv.ok_bind_ok h
    simp only [M.get_bind] at h2
    obtain ⟨_, u2, h3, h4⟩ := Conv.ok_bind_ok h2
    obtain ⟨_, u3, h5, h6⟩ := Conv.ok_bind_ok h4
    cases h6
    obtain ⟨e1, e2⟩ := readLine_err h5
    have hcv : Conv.valid x.cfg u1.rd.cur.conv = true := by
      cases hcv : Conv.valid x.cfg u1.rd.cur.conv with
      | true => rfl
      | false =>
        rw [hcv] at h3
        have := hic_invalid hc (by simpa using h3)
        rw [e1, this] at hv; cases hv
    rw [hcv] at h3
    cases h3
    rw [e2]
    exact (Conv.convertCached_ok (onCur_ok h1).1 hcv).2
  cases hc : x.cfg.mode with
  | throw =>
    rw [hc] at h
    have h := tryCatch_rethrow_ok h
    obtain ⟨v, u1, h1, h2⟩ := Conv.ok_bind_ok h
    obtain ⟨_, u2, h3, h4⟩ := Conv.ok_bind_ok h2
    cases h4
    rw [(readLine_err h3).2]
    exact (Conv.convertCached_ok (onCur_ok h1).1 (by rw [hc]; rfl)).2
  | string => rw [hc] at h; exact hnt (by simp [hc]) h
  | bool => rw [hc] at h; exact hnt (by simp [hc]) h

theorem getNext_reads {rs : List Req} {vs : List Val} {s s' : Parser} (h : getNext x rs s = .ok vs s')
    (hv : s'.valid x.cfg = true) : All2 (Conv.ReadsAt s'.rd.cur.conv) (valued rs 0) vs := by
  unfold getNext at h
  obtain ⟨_, u1, _, h⟩ := Conv.ok_bind_ok h
  obtain ⟨_, u2, _, h⟩ := Conv.ok_bind_ok h
  simp only [M.get_bind] at h
  split at h
  · rename_i hb
    obtain ⟨_, u3, h3, h⟩ := Conv.ok_bind_ok h
    obtain ⟨_, u4, h4, h⟩ := Conv.ok_bind_ok h
    cases h
    have hc : x.cfg.mode ≠ .throw := by intro hc; simp [Conv.valid, hc, ErrSt.valid] at hb
    have := hic_invalid hc h3
    unfold valid at hv
    rw [(readLine_err h4).1, this] at hv; cases hv
  · obtain ⟨_, u3, _, h⟩ := Conv.ok_bind_ok h
    split at h
    · obtain ⟨_, u4, h4, h⟩ := Conv.ok_bind_ok h
      cases h
      have := fail_invalid (by simp [bs]) h4
      rw [hv] at this; cases this
    · exact convertRow_reads h hv

end Parser

/-! ## Chains -/

namespace Parser

/-- the present line and the selection of columns -/
def SameRow (c0 : Conv) (s : Parser) : Prop := SameLine c0 s.rd.cur.conv

theorem onCur_same {rs : List Req} {c0 : Conv} {s : Parser} (h : SameRow c0 s) :
    Part (SameRow c0) (onCur (Conv.convertCached x.cfg rs) s) := by
  have := Conv.convertCached_same (c := x.cfg) (rs := rs) h
  unfold onCur
  cases hm : Conv.convertCached x.cfg rs s.rd.cur.conv with
  | ok a cv => rw [hm] at this; exact this
  | exc e cv => rw [hm] at this; exact this
  | ub => trivial
  | nofuel => trivial

theorem handleError_row {m : Bytes} {c0 : Conv} {s : Parser} (h : SameRow c0 s) : Part (SameRow c0) (handleError x.cfg m s) := by
  unfold handleError; cases x.cfg.mode <;> exact h

theorem tryInvoke_same {c0 : Conv} {vs : List Val} {f : Option (List Val → Option Bool)} {s : Parser} (h : SameRow c0 s) :
    Part (SameRow c0) (tryInvoke x vs f s) := by
  unfold tryInvoke
  cases f with
  | none => exact h
  | some f =>
    simp only
    cases f vs with
    | none => exact h
    | some b =>
      cases b with
      | true => exact h
      | false => exact Part.bind (handleError_row h) fun _ _ h => h

theorem trySame_same {c0 : Conv} {rs : List Req} {s : Parser} (h : SameRow c0 s) : Part (SameRow c0) (trySame x rs s) := by
  unfold trySame
  refine Part.bind (m := clearError x.cfg) h fun _ _ h => Part.bind (onCur_same h) fun _ _ h => ?_
  refine Part.bind (Part.get h) fun _ _ h => Part.bind (Part.ite h ?_) fun _ _ h => h
  exact h

theorem orElse_same {c0 : Conv} {a : Alt} {s : Parser} (h : SameRow c0 s) : Part (SameRow c0) (orElse x a s) := by
  unfold orElse
  refine Part.bind (Part.get h) fun _ _ h => Part.ite h ?_
  refine Part.bind (trySame_same h) fun _ _ h => Part.bind (Part.get h) fun _ _ h => Part.ite ?_ h
  exact Part.bind (tryInvoke_same h) fun _ _ h => h

theorem orElses_same {c0 : Conv} : ∀ (as : List Alt) {s : Parser}, SameRow c0 s → Part (SameRow c0) (orElses x as s) := by
  intro as
  induction as with
  | nil => intro s h; exact h
  | cons a as ih => intro s h; exact Part.bind (orElse_same h) fun _ _ h => Part.bind (ih h) fun _ _ h => h

theorem Part.ok {σ α : Type} {P : σ → Prop} {r : Res σ α} {a : α} {s : σ} (h : Part P r) (hr : r = .ok a s) : P s := by
  rw [hr] at h; exact h

theorem ReadsAt_congr {c0 c1 : Conv} (h : SameLine c0 c1) {rs : List (Req × Nat)} {vs : List Val}
    (ha : All2 (Conv.ReadsAt c0) rs vs) : All2 (Conv.ReadsAt c1) rs vs := by
  induction ha with
  | nil => exact .nil
  | cons h1 _ ih =>
    refine .cons ?_ ih
    unfold Conv.ReadsAt Conv.column at h1 ⊢
    rw [h.1, h.2]
    exact h1

/-- what is known of a value of a composite -/
def OptReads (cv : Conv) (a : Alt) (r : Option (List Val) × Bool) : Prop :=
  ∀ vs, r.1 = some vs → All2 (Conv.ReadsAt cv) (valued a.reqs 0) vs

theorem trySame_reads {rs : List Req} {vs : List Val} {s s' : Parser} (h : trySame x rs s = .ok vs s')
    (hv : s'.valid x.cfg = true) : All2 (Conv.ReadsAt s'.rd.cur.conv) (valued rs 0) vs := by
  unfold trySame at h
  obtain ⟨_, u1, _, h⟩ := Conv.ok_bind_ok h
  obtain ⟨v, u2, h2, h⟩ := Conv.ok_bind_ok h
  simp only [M.get_bind] at h
  obtain ⟨_, u3, h3, h⟩ := Conv.ok_bind_ok h
  cases h
  unfold valid at hv
  have hcv : Conv.valid x.cfg u2.rd.cur.conv = true := by
    cases hcv : Conv.valid x.cfg u2.rd.cur.conv with
    | true => rfl
    | false =>
      have hc : x.cfg.mode ≠ .throw := by intro hc; simp [Conv.valid, hc, ErrSt.valid] at hcv
      rw [hcv] at h3
      have := hic_invalid hc (by simpa using h3)
      rw [this] at hv; cases hv
  rw [hcv] at h3
  cases h3
  exact (Conv.convertCached_ok (onCur_ok h2).1 hcv).2

theorem orElse_reads {a : Alt} {r : Option (List Val) × Bool} {s s' : Parser} (h : orElse x a s = .ok r s') :
    OptReads s'.rd.cur.conv a r := by
  unfold orElse at h
  simp only [M.get_bind] at h
  split at h
  · cases h; intro vs h; cases h
  · obtain ⟨v, u1, h1, h⟩ := Conv.ok_bind_ok h
    simp only [M.get_bind] at h
    split at h
    · rename_i hv
      obtain ⟨b, u2, h2, h⟩ := Conv.ok_bind_ok h
      cases h
      intro vs hvs
      simp only at hvs
      split at hvs
      · cases hvs
        exact ReadsAt_congr (Part.ok (P := SameRow u1.rd.cur.conv) (tryInvoke_same (c0 := u1.rd.cur.conv) ⟨rfl, rfl⟩) h2) (trySame_reads h1 hv)
      · cases hvs
    · cases h; intro vs h; cases h

theorem tryNext_reads {a : Alt} {r : Option (List Val) × Bool} {s s' : Parser} (h : tryNext x a s = .ok r s') :
    OptReads s'.rd.cur.conv a r := by
  unfold tryNext at h
  obtain ⟨v, u1, h1, h⟩ := Conv.ok_bind_ok h
  simp only [M.get_bind] at h
  split at h
  · rename_i hv
    obtain ⟨b, u2, h2, h⟩ := Conv.ok_bind_ok h
    cases h
    intro vs hvs
    simp only at hvs
    split at hvs
    · cases hvs
      exact ReadsAt_congr (Part.ok (P := SameRow u1.rd.cur.conv) (tryInvoke_same (c0 := u1.rd.cur.conv) ⟨rfl, rfl⟩) h2) (getNext_reads h1 hv)
    · cases hvs
  · cases h; intro vs h; cases h

theorem orElses_reads : ∀ (as : List Alt) {l : List (Option (List Val) × Bool)} {s s' : Parser}, orElses x as s = .ok l s' →
    All2 (OptReads s'.rd.cur.conv) as l := by
  intro as
  induction as with
  | nil => intro l s s' h; cases h; exact .nil
  | cons a as ih =>
    intro l s s' h
    unfold orElses at h
    obtain ⟨r, u1, h1, h⟩ := Conv.ok_bind_ok h
    obtain ⟨rest, u2, h2, h⟩ := Conv.ok_bind_ok h
    cases h
    exact .cons (fun vs hvs => ReadsAt_congr (Part.ok (P := SameRow u1.rd.cur.conv) (orElses_same as (c0 := u1.rd.cur.conv) ⟨rfl, rfl⟩) h2)
      (orElse_reads h1 vs hvs)) (ih h2)

theorem tryChain_reads {a : Alt} {as : List Alt} {l : List (Option (List Val) × Bool)} {s s' : Parser}
    (h : tryChain x a as s = .ok l s') : All2 (OptReads s'.rd.cur.conv) (a :: as) l := by
  unfold tryChain at h
  obtain ⟨r, u1, h1, h⟩ := Conv.ok_bind_ok h
  obtain ⟨rest, u2, h2, h⟩ := Conv.ok_bind_ok h
  cases h
  exact .cons (fun vs hvs => ReadsAt_congr (Part.ok (P := SameRow u1.rd.cur.conv) (orElses_same as (c0 := u1.rd.cur.conv) ⟨rfl, rfl⟩) h2)
    (tryNext_reads h1 vs hvs)) (orElses_reads as h2)

end Parser

mutual
theorem extract_shows {mem : Bytes} {b e : Nat} : ∀ (t : Ty) {d v : Val}, t.Plain → extract mem b e t d = some (true, v) →
    v.Shows (textAt mem b e)
  | .int t, d, v, _, h => by
    unfold extract at h
    cases ht : toNum t (textAt mem b e) <;> rw [ht] at h <;> cases h
    trivial
  | .bool, d, v, _, h => by
    unfold extract extractBool at h
    simp only [Option.some.injEq] at h
    split at h
    · split at h
      · cases h; trivial
      · split at h <;> cases h; trivial
    · split at h
      · cases h; trivial
      · split at h <;> cases h; trivial
  | .char, d, v, _, h => by
    unfold extract at h
    cases ht : mem[b]? <;> rw [ht] at h
    · cases h
    · simp only [Option.some.injEq, Prod.mk.injEq] at h
      rw [← h.2]; trivial
  | .str, d, v, _, h => by unfold extract at h; cases h; trivial
  | .view, d, v, _, h => by unfold extract at h; cases h; rfl
  | .opt t, d, v, hp, h => by
    unfold extract at h
    cases ht : extract mem b e t t.dflt with
    | none => rw [ht] at h; cases h
    | some q =>
      obtain ⟨ok, w⟩ := q
      rw [ht] at h
      cases ok with
      | true => cases h; exact (extract_shows t (by unfold Ty.Plain at hp; exact hp) ht : w.Shows _)
      | false => cases h; trivial
  | .variant ts, d, v, hp, h => by
    unfold extract at h
    exact extractVariant_shows ts (by unfold Ty.Plain at hp; exact hp) h
  | .custom _ _, _, _, hp, _ => by unfold Ty.Plain at hp; exact hp.elim
theorem extractVariant_shows {mem : Bytes} {b e : Nat} : ∀ (ts : List Ty) {i : Nat} {d v : Val}, PlainAll ts →
    extractVariant mem b e ts i d = some (true, v) → v.Shows (textAt mem b e)
  | [], i, d, v, _, h => by unfold extractVariant at h; cases h
  | t :: ts, i, d, v, hp, h => by
    unfold PlainAll at hp
    unfold extractVariant at h
    cases ht : extract mem b e t t.dflt with
    | none => rw [ht] at h; cases h
    | some q =>
      obtain ⟨ok, w⟩ := q
      rw [ht] at h
      cases ok with
      | true => cases h; exact (extract_shows t hp.1 ht : w.Shows _)
      | false => exact extractVariant_shows ts hp.2 h
end

theorem All2.weaken {α β : Type} {R S : α → β → Prop} {as : List α} {bs : List β} (h : All2 R as bs) (hrs : ∀ a b, R a b → S a b) :
    All2 S as bs := by
  induction h with
  | nil => exact .nil
  | cons h _ ih => exact .cons (hrs _ _ h) ih

/-- The values `vs` of a row requested as `rs` that was returned by the parser in the state `s1`, some calls later (`s2`):
each is what a conversion of the text that is now between the pointers of its column gives, and the `string_view`s in it
show that text. -/
def StillShown (rs : List Req) (vs : List Val) (s1 s2 : Parser) : Prop :=
  All2 (fun r v => ∃ p, s1.rd.cur.conv.column r.2 = some p ∧ p.1 ≤ p.2 ∧ p.2 ≤ s2.block.length ∧ r.1.Reads s2.block p v ∧
    ∀ t, r.1 = .ty t → t.Plain → v.Shows (textAt s2.block p.1 p.2)) (valued rs 0) vs

theorem stillShown {rs : List Req} {vs : List Val} {s1 s2 : Parser} (h : All2 (Conv.ReadsAt s1.rd.cur.conv) (valued rs 0) vs)
    (hb : s2.block = s1.block) : StillShown rs vs s1 s2 := by
  refine h.weaken fun r v hq => ?_
  obtain ⟨p, h1, _, h2, h3, h4⟩ := hq
  rw [hb]
  refine ⟨p, h1, h2, h3, h4, fun t ht hp => ?_⟩
  rw [ht] at h4
  exact extract_shows t hp h4

/-- **C40.** After a `get_next` that returned a row, until the next `get_next` or `try_next`, whatever calls of
`ignore_next`, `header`, `raw_header`, `field_exists` and `use_fields` come between (`s2` is the parser after them): the
block with the line of the row is unchanged and was not reallocated, and each value of the row is what a conversion of the
text between the pointers of its column (as they were when the row was returned) gives now.  So a `string_view`, which
consists of these pointers, also in an optional or a variant, still shows what it showed when it was returned. -/
theorem C40_views {rs : List Req} {vs : List Val} {s s1 s2 : Parser} (h : Parser.getNext x rs s = .ok vs s1)
    (hv : s1.valid x.cfg = true) {ops : List Op} (ho : ∀ op ∈ ops, op.Between) {os : List Obs}
    (hr : Parser.run x ops s1 = some (os, s2)) :
    s2.block = s1.block ∧ s2.blockGen = s1.blockGen ∧ StillShown rs vs s1 s2 := by
  have hs : s2.rd.cur.conv.spl = s1.rd.cur.conv.spl := Parser.run_same ops ho (sp := s1.rd.cur.conv.spl) rfl hr
  exact ⟨congrArg Spl.mem hs, congrArg Spl.gen hs, stillShown (Parser.getNext_reads h hv) (congrArg Spl.mem hs)⟩

/-- **C40**, for the rows in the optionals of `try_next(...).or_else(...)...`. -/
theorem C40_chain {a : Parser.Alt} {as : List Parser.Alt} {l : List (Option (List Val) × Bool)} {s s1 s2 : Parser}
    (h : Parser.tryChain x a as s = .ok l s1) {ops : List Op} (ho : ∀ op ∈ ops, op.Between) {os : List Obs}
    (hr : Parser.run x ops s1 = some (os, s2)) :
    s2.block = s1.block ∧ s2.blockGen = s1.blockGen ∧
    All2 (fun b r => ∀ vs, r.1 = some vs → StillShown b.reqs vs s1 s2) (a :: as) l := by
  have hs : s2.rd.cur.conv.spl = s1.rd.cur.conv.spl := Parser.run_same ops ho (sp := s1.rd.cur.conv.spl) rfl hr
  exact ⟨congrArg Spl.mem hs, congrArg Spl.gen hs,
    (Parser.tryChain_reads h).weaken fun b r hb vs hvs => stillShown (hb vs hvs) (congrArg Spl.mem hs)⟩

/-! ## Cases -/

namespace Demo

/-- a row with a view, then calls that read a line and split the header -/
def vreqs : List Req := [.ty .view, .ty (.opt .view)]
def vops : List Op := [.ignoreNext, .header, .fieldExists (bs "b"), .useFields [bs "b"]]

/-- the parser after one row -/
def afterRow (c : Cfg) (d : String) : Parser :=
  match Parser.getNext (ctx c d) vreqs (start c d) with
  | .ok _ s => s
  | _ => {}

/-- The hypotheses of `C40_views` hold: a row with two views is returned, `ignore_next` and the header calls come back. -/
example : Parser.getNext (ctx cs "a,b\ncd,ef\ng,h\n") vreqs (start cs "a,b\ncd,ef\ng,h\n") =
      .ok [.view (bs "a"), .engaged (.view (bs "b"))] (afterRow cs "a,b\ncd,ef\ng,h\n") ∧
    (afterRow cs "a,b\ncd,ef\ng,h\n").valid cs = true ∧
    (Parser.run (ctx cs "a,b\ncd,ef\ng,h\n") vops (afterRow cs "a,b\ncd,ef\ng,h\n")).isSome = true ∧
    valued vreqs 0 = [(.ty .view, 0), (.ty (.opt .view), 1)] := by
  refine ⟨by decide +kernel, by decide +kernel, by decide +kernel, rfl⟩

/-- the parser after a row with one view -/
def rowOf (s : Parser) : Parser :=
  match Parser.getNext (ctx cs "abc\ndef\nghi\n") [.ty .view] s with
  | .ok _ s => s
  | _ => {}

/-- `C40` ends with the next row: reading it swaps the two line buffers and then reads a further line over the old one.
A view of the first row, which has the pointers (0, 3) in the block that now is the next line buffer, shows the third row
instead of the first. -/
theorem C40_until_next_row : ∃ s1 s2,
    Parser.getNext (ctx cs "abc\ndef\nghi\n") [.ty .view] (start cs "abc\ndef\nghi\n") = .ok [.view (bs "abc")] s1 ∧
    s1.rd.cur.conv.column 0 = some (0, 3) ∧ textAt s1.block 0 3 = bs "abc" ∧
    Parser.getNext (ctx cs "abc\ndef\nghi\n") [.ty .view] s1 = .ok [.view (bs "def")] s2 ∧
    textAt s2.rd.next.conv.spl.mem 0 3 = bs "ghi" :=
  ⟨rowOf (start cs "abc\ndef\nghi\n"), rowOf (rowOf (start cs "abc\ndef\nghi\n")), by decide +kernel⟩

end Demo

end Ssp
