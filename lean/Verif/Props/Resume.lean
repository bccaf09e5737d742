import Verif.Proofs.Resume
import Verif.Props.ParserSame
/-!
# What a parser does next depends on the text behind `position()` (C67)
-/
namespace Ssp
open Spec

theorem run_twin {x y : Ctx} (hux : x.Usable) (huy : y.Usable) (hc : y.cfg = x.cfg) (hdl : y.delim = x.delim) {s t : Parser}
    (hs : Parser.ReachT x s) (ht : Parser.ReachT y t) (hr : x.rest s.line ≠ []) (hr' : y.rest t.line ≠ [])
    (hd : (rawLines x.src.data).drop s.line = (rawLines y.src.data).drop t.line) : ∀ (ops : List Op) {s1 t1 : Parser},
    Abreast x y s t s1 t1 → (∀ op ∈ ops, op.ReadsRow x.cfg) → Parser.Covered x ops s1 →
    ∃ os os' s2 t2, Parser.run x ops s1 = some (os, s2) ∧ Parser.run y ops t1 = some (os', t2) ∧ All2 (SameAhead s t) os os'
  | [], s1, t1, _, _, _ => ⟨[], [], s1, t1, rfl, rfl, .nil⟩
  | op :: ops, s1, t1, h, ho, hT => by
    have h1 : ∃ o o' s2 t2, Parser.step x op s1 = some (o, s2) ∧ Parser.step y op t1 = some (o', t2) ∧ SameAhead s t o o' ∧
        Abreast x y s t s2 t2 := by
      have h2 := ho op (by simp)
      cases op with
      | getNext rs => exact getNext_twin hux huy hc hdl hs ht hr hr' hd h h2
      | chain a as => exact chain_twin hux huy hc hdl hs ht hr hr' hd h h2.1 h2.2 hT.1
      | ignoreNext => cases h2
      | header => cases h2
      | rawHeader => cases h2
      | fieldExists f => cases h2
      | useFields fs => cases h2
    obtain ⟨o, o', s2, t2, a1, a2, a3, a4⟩ := h1
    obtain ⟨os, os', s3, t3, b1, b2, b3⟩ := run_twin hux huy hc hdl hs ht hr hr' hd ops a4 (fun op h => ho op (by simp [h])) (hT.2 _ _ a1)
    exact ⟨o :: os, o' :: os', s3, t3, by simp [Parser.run, a1, b1], by simp [Parser.run, a2, b2], .cons a3 b3⟩

/-- C67: what a parser does depends only on the text behind its `position()`, its setup and its column selection.  Two parsers
with the same setup and delimiter, whatever their inputs and whatever happened to them before, that have the same text ahead
(with a row in it) and the same columns selected, give the same rows and the same failures for every sequence of `get_next`
and `try_next(...).or_else(...)...`; they reach the end with the same call; and until then they move over the same number of
lines and bytes.  (`Usable`, `Covered`: without multiline nothing, with it see there.) -/
theorem C67_same_ahead {x y : Ctx} (hux : x.Usable) (huy : y.Usable) (hc : y.cfg = x.cfg) (hdl : y.delim = x.delim) {s t : Parser}
    (hs : Parser.ReachT x s) (ht : Parser.ReachT y t) (hr : x.rest s.line ≠ []) (hr' : y.rest t.line ≠ [])
    (hd : x.src.data.drop s.position = y.src.data.drop t.position) (hcv : ∀ l, t.converter l = s.converter l)
    {ops : List Op} (ho : ∀ op ∈ ops, op.ReadsRow x.cfg) (hT : Parser.Covered x ops s) :
    ∃ os os' s' t', Parser.run x ops s = some (os, s') ∧ Parser.run y ops t = some (os', t') ∧ All2 (SameAhead s t) os os' := by
  have hd' : (rawLines x.src.data).drop s.line = (rawLines y.src.data).drop t.line := by
    rw [(position_of hux.ok hs hr).2.1, (position_of huy.ok ht hr').2.1] at hd
    rw [← rawLines_drop x.src.data s.line, hd, rawLines_drop]
  exact run_twin hux huy hc hdl hs ht hr hr' hd' ops
    ⟨hs, ht, fun _ => hcv, .inr ⟨0, rfl, rfl, hr, hr', eof_of hux.ok hs hr, eof_of huy.ok ht hr'⟩⟩ ho hT

theorem MlOk.shift {x y : Ctx} (hx : x.MlOk) (hy : y.Ok) (hc : y.cfg = x.cfg) (hdl : y.delim = x.delim) {n : Nat}
    (hd : (rawLines x.src.data).drop n = rawLines y.src.data) : y.MlOk := by
  refine ⟨hy, by rw [hc]; exact hx.ml, by rw [hc, hdl]; exact hx.clean, by rw [hc]; exact hx.lf, ?_⟩
  intro m k hlt hq
  have hd0 : (rawLines x.src.data).drop n = (rawLines y.src.data).drop 0 := by rw [hd]; rfl
  have hd1 := drop_more hd0 m
  rw [Nat.zero_add] at hd1
  rw [← joined_shift hd1] at hq ⊢
  rw [hc, hdl] at hq
  exact hx.quotes _ _ ((length_drop_eq (lines_drop hd1) k).mpr hlt) hq

/-- where a parser is whose rows are those from the row in line `n` on -/
theorem line_of_rest {y : Ctx} (hy : y.Ok) {t : Parser} (ht : Parser.ReachT y t) {n : Nat} (hn : y.Starts n n)
    (h : y.rest t.line = y.rest n) : t.line = n ∧ y.rest t.line ≠ [] := by
  obtain ⟨l, h1, h2⟩ := rest_starts hn
  have hr : y.rest t.line ≠ [] := by rw [h, h2]; simp
  obtain ⟨a, a1, a2⟩ := (starts_here hy.liveT ht hr).row
  obtain ⟨b, b1, b2⟩ := hn.row
  refine ⟨?_, hr⟩
  unfold Ctx.rest at h
  refine same_place (p := fun l => !y.cfg.ignoreEmpty || !l.isEmpty) h a1 ?_ b1 ?_
  · cases hie : y.cfg.ignoreEmpty with
    | false => rfl
    | true => simpa using a2 hie
  · cases hie : y.cfg.ignoreEmpty with
    | false => rfl
    | true => simpa using b2 hie

theorem starts_shift {x y : Ctx} {n n' : Nat} (hc : y.cfg = x.cfg)
    (hd : (rawLines x.src.data).drop n = (rawLines y.src.data).drop n') (h : x.Starts n n) : y.Starts n' n' := by
  refine ⟨Nat.le_refl _, ?_, fun i h1 h2 => by omega⟩
  obtain ⟨l, h1, h2⟩ := h.row
  have e := congrArg (fun L : List Bytes => L[0]?) (lines_drop hd)
  simp only [List.getElem?_drop, Nat.add_zero] at e
  exact ⟨l, by rw [← e]; exact h1, by rw [hc]; exact h2⟩

/-- C67: reading can be resumed.  When a parser without a column selection stands in front of a row, and a new parser is
made of the text behind `position()`, with the same setup (here without `ignore_header`), the new one delivers from its start
on what the old one would have delivered. -/
theorem C67_resume {x y : Ctx} (hux : x.Usable) (hy : y.Ok) (hc : y.cfg = x.cfg) (hdl : y.delim = x.delim) {s t : Parser}
    (hs : Parser.ReachT x s) (hr : x.rest s.line ≠ []) (hcv : ∀ l, s.converter l = { spl := { mem := l ++ [NUL] } })
    (hih : x.cfg.ignoreHeader = false) (hd : y.src.data = x.src.data.drop s.position) (ht : Parser.Created y t)
    {ops : List Op} (ho : ∀ op ∈ ops, op.ReadsRow x.cfg) (hT : Parser.Covered x ops s) :
    t.line = 0 ∧ t.position = 0 ∧ t.eof = false ∧
    ∃ os os' s' t', Parser.run x ops s = some (os, s') ∧ Parser.run y ops t = some (os', t') ∧ All2 (SameAhead s t) os os' := by
  have hraw : (rawLines x.src.data).drop s.line = rawLines y.src.data := by
    rw [hd, (position_of hux.ok hs hr).2.1, rawLines_drop]
  have hraw0 : (rawLines x.src.data).drop s.line = (rawLines y.src.data).drop 0 := by rw [hraw]; rfl
  have huy : y.Usable := by
    rcases hux with ⟨h1, h2⟩ | h1
    · exact .inl ⟨hy, by rw [hc]; exact h2⟩
    · exact .inr (MlOk.shift h1 hy hc hdl hraw)
  obtain ⟨c1, _, c3, _⟩ := created_rest hy.liveT.good ht
  have hst := starts_shift hc hraw0 (starts_here hux.ok.liveT hs hr)
  have hrows : y.rows = y.rest 0 := by simp [Ctx.rows, hc, hih]
  obtain ⟨e1, e2⟩ := line_of_rest hy ht.reachT hst (by rw [c1, hrows])
  have hp := (position_of hy ht.reachT e2).1
  have hp0 : t.position = 0 := by rw [hp, e1]; rfl
  refine ⟨e1, hp0, eof_of hy ht.reachT e2, ?_⟩
  exact C67_same_ahead hux huy hc hdl hs ht.reachT hr e2 (by rw [hd, hp0]; rfl) (fun l => by rw [c3, hcv]) ho hT

/-- C67, with `ignore_header`: the new parser is given a header in front of the rest, any line that is a row. -/
theorem C67_resume_header {x y : Ctx} (hux : x.Usable) (huy : y.Usable) (hc : y.cfg = x.cfg) (hdl : y.delim = x.delim) {s t : Parser}
    (hs : Parser.ReachT x s) (hr : x.rest s.line ≠ []) (hcv : ∀ l, s.converter l = { spl := { mem := l ++ [NUL] } })
    (hih : x.cfg.ignoreHeader = true) {hdr : Bytes} (h1 : LF ∉ hdr) (h2 : chop (hdr ++ [LF]) ≠ [] ∨ x.cfg.ignoreEmpty = false)
    (hd : y.src.data = (hdr ++ [LF]) ++ x.src.data.drop s.position) (ht : Parser.Created y t)
    {ops : List Op} (ho : ∀ op ∈ ops, op.ReadsRow x.cfg) (hT : Parser.Covered x ops s) :
    t.line = 1 ∧ t.position = hdr.length + 1 ∧ t.eof = false ∧
    ∃ os os' s' t', Parser.run x ops s = some (os, s') ∧ Parser.run y ops t = some (os', t') ∧ All2 (SameAhead s t) os os' := by
  have hy := huy.ok
  have hraw : rawLines y.src.data = (hdr ++ [LF]) :: (rawLines x.src.data).drop s.line := by
    rw [hd, List.append_assoc, List.singleton_append, rawLines_snoc h1, (position_of hux.ok hs hr).2.1, rawLines_drop]
  have hraw1 : (rawLines x.src.data).drop s.line = (rawLines y.src.data).drop 1 := by rw [hraw]; rfl
  obtain ⟨c1, _, c3, _⟩ := created_rest hy.liveT.good ht
  have hst := starts_shift hc hraw1 (starts_here hux.ok.liveT hs hr)
  have hrest0 : y.rest 0 = chop (hdr ++ [LF]) :: y.rest 1 := by
    unfold Ctx.rest lines
    rw [hraw]
    simp only [List.map_cons, List.drop_zero, List.drop_succ_cons]
    rw [List.filter_cons_of_pos]
    rw [hc]
    rcases h2 with h2 | h2
    · simp [h2]
    · simp [h2]
  have hrows : y.rows = y.rest 1 := by simp [Ctx.rows, hc, hih, hrest0]
  obtain ⟨e1, e2⟩ := line_of_rest hy ht.reachT hst (by rw [c1, hrows])
  have hp := (position_of hy ht.reachT e2).1
  have hp0 : t.position = hdr.length + 1 := by rw [hp, e1, hraw]; simp
  refine ⟨e1, hp0, eof_of hy ht.reachT e2, ?_⟩
  refine C67_same_ahead hux huy hc hdl hs ht.reachT hr e2 ?_ (fun l => by rw [c3, hcv]) ho hT
  rw [hd, hp0, List.drop_append_of_le_length (by simp)]
  simp

namespace Demo
/-- behind the first row of `text` -/
def text2 : String := "\"b\r\nc\n\"\"\",2\ne\\\nf,3\r\ng,4"
end Demo

open Demo in
/-- the hypotheses of `C67_resume` are met: a parser that has read the first of four rows, two of which have several lines, and
a new parser of the text behind it; what both then deliver -/
example : (∃ s, Parser.ReachT (ctx cm text) s ∧ (ctx cm text).Usable ∧ (ctx cm text).rest s.line ≠ [] ∧
      (∀ l, s.converter l = { spl := { mem := l ++ [NUL] } }) ∧
      (ctx cm text2).src.data = (ctx cm text).src.data.drop s.position ∧ Parser.Created (ctx cm text2) (start cm text2)) ∧
    (runs cm text [.getNext [str, num], .getNext [num], .chain ⟨[num, num], none⟩ [⟨[str, num], none⟩], .getNext [str, num]]).map
      (fun o => (o.ret, o.valid, o.eof, o.line, o.position)) =
      [(.row (some [.str (bs "a"), .int 1]), true, false, 1, 4), (.row none, false, false, 4, 16),
       (.opts [(none, false), (some [.str (bs "e\nf"), .int 3], false)], true, false, 6, 24),
       (.row (some [.str (bs "g"), .int 4]), true, true, 7, 27)] ∧
    (runs cm text2 [.getNext [num], .chain ⟨[num, num], none⟩ [⟨[str, num], none⟩], .getNext [str, num]]).map
      (fun o => (o.ret, o.valid, o.eof, o.line, o.position)) =
      [(.row none, false, false, 3, 12), (.opts [(none, false), (some [.str (bs "e\nf"), .int 3], false)], true, false, 5, 20),
       (.row (some [.str (bs "g"), .int 4]), true, true, 6, 23)] := by
  refine ⟨?_, by decide +kernel, by decide +kernel⟩
  have hn : NUL ∉ bs text := by decide +kernel
  have hc := createdM cm_wf text
  obtain ⟨os, s, h, _⟩ := C54_calls_multiline_partial (ok cm cm_wf text) hc.reachT [.getNext [str, num]]
    (.noOrElse (by simp))
  have get : ∀ {β : Type} (f : Parser → β) (b : β), ((Parser.run (ctx cm text) [.getNext [str, num]] (start cm text)).map fun p => f p.2) = some b → f s = b := by
    intro β f b hb
    rw [h] at hb
    exact Option.some.inj hb
  have h1 : s.line = 1 := get Parser.line 1 (by decide +kernel)
  have h2 : s.position = 4 := get Parser.position 4 (by decide +kernel)
  have h3 : s.rd.cur.conv.mappings = [] ∧ s.rd.cur.conv.ncols = 0 := by
    have := get (fun s => (s.rd.cur.conv.mappings, s.rd.cur.conv.ncols)) ([], 0) (by decide +kernel)
    simpa using this
  refine ⟨s, hc.reachT.run (.noOrElse (by simp)) h, .inr (cm_ok hn), ?_, ?_, ?_, createdM cm_wf _⟩
  · rw [h1]; decide +kernel
  · intro l; unfold Parser.converter; rw [h3.1, h3.2]
  · rw [h2]; decide +kernel

namespace Demo
/-- a setup that skips the first line -/
def cih : Cfg := { mode := .throw, ignoreHeader := true, ignoreEmpty := true }
theorem cih_wf : cih.WF := by constructor <;> simp [cih]
end Demo

open Demo in
/-- the hypotheses of `C67_resume_header` are met (and, from there, those of `C67_same_ahead`): the parser has met an error,
behind the next row there are empty lines, and the new one has another header -/
example : (∃ s, Parser.ReachT (ctx cih "h\nx\n\n7\n\n8\n") s ∧ (ctx cih "h\nx\n\n7\n\n8\n").Usable ∧ (ctx cih "h\nx\n\n7\n\n8\n").rest s.line ≠ [] ∧
      (∀ l, s.converter l = { spl := { mem := l ++ [NUL] } }) ∧ (ctx cih "xyz\n7\n\n8\n").Usable ∧ chop (bs "xyz" ++ [LF]) ≠ [] ∧ LF ∉ bs "xyz" ∧
      (ctx cih "xyz\n7\n\n8\n").src.data = (bs "xyz" ++ [LF]) ++ (ctx cih "h\nx\n\n7\n\n8\n").src.data.drop s.position ∧
      Parser.Created (ctx cih "xyz\n7\n\n8\n") (start cih "xyz\n7\n\n8\n")) ∧
    (runs cih "h\nx\n\n7\n\n8\n" [.getNext [num], .getNext [num], .getNext [num], .getNext [num]]).map (fun o => (o.ret, o.eof, o.line, o.position)) =
      [(.thrown (bs "f 3: invalid conversion for parameter at column 1: 'x'"), false, 3, 5), (.row (some [.int 7]), false, 5, 8),
       (.row (some [.int 8]), true, 6, 10), (.thrown (bs "f: read on end of file"), true, 6, 10)] ∧
    (runs cih "xyz\n7\n\n8\n" [.getNext [num], .getNext [num], .getNext [num]]).map (fun o => (o.ret, o.eof, o.line, o.position)) =
      [(.row (some [.int 7]), false, 3, 7), (.row (some [.int 8]), true, 4, 9), (.thrown (bs "f: read on end of file"), true, 4, 9)] := by
  refine ⟨?_, by decide +kernel, by decide +kernel⟩
  have hc := createdM cih_wf "h\nx\n\n7\n\n8\n"
  obtain ⟨os, s, h, _⟩ := C54_calls_are_defined (ok cih cih_wf "h\nx\n\n7\n\n8\n") rfl hc.reach [.getNext [num]]
  have get : ∀ {β : Type} (f : Parser → β) (b : β), ((Parser.run (ctx cih "h\nx\n\n7\n\n8\n") [.getNext [num]] (start cih "h\nx\n\n7\n\n8\n")).map fun p => f p.2) = some b → f s = b := by
    intro β f b hb
    rw [h] at hb
    exact Option.some.inj hb
  have h1 : s.line = 3 := get Parser.line 3 (by decide +kernel)
  have h2 : s.position = 5 := get Parser.position 5 (by decide +kernel)
  have h3 : s.rd.cur.conv.mappings = [] ∧ s.rd.cur.conv.ncols = 0 := by
    have := get (fun s => (s.rd.cur.conv.mappings, s.rd.cur.conv.ncols)) ([], 0) (by decide +kernel)
    simpa using this
  refine ⟨s, hc.reachT.run (.single rfl) h, .inl ⟨ok _ cih_wf _, rfl⟩, ?_, ?_, .inl ⟨ok _ cih_wf _, rfl⟩, by decide, by decide, ?_, createdM cih_wf _⟩
  · rw [h1]; decide +kernel
  · intro l; unfold Parser.converter; rw [h3.1, h3.2]
  · rw [h2]; decide +kernel

end Ssp
