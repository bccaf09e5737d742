import Verif.Proofs.OomSim
import Verif.Proofs.ParserRow
import Verif.Props.ParserMemory
/-!
# C65: a parser for which memory runs out
-/
namespace Ssp
open Parser

/-- the outcome of a call, and the heap behind it -/
def Res.withHeap {σ α : Type} (r : Res σ α) (h : Heap) : Res (σ × Heap) (Option α) :=
  match r with
  | .ok a s => .ok (some a) (s, h)
  | .exc e s => .exc e (s, h)
  | .ub => .ub
  | .nofuel => .nofuel

/-- `std::bad_alloc` has left the call -/
def Res.BadAlloc {σ α : Type} (r : Res (σ × Heap) (Option α)) (s : σ) (h : Heap) : Prop := r = .ok none (s, h)

/-- a request with a number between those of the two heaps was refused -/
def Alloc.RefusedBetween (w : Alloc) (h h' : Heap) : Prop := ∃ i, h.reqs ≤ i ∧ i < h'.reqs ∧ w.refuses i = true

theorem Out.spell {σ α : Type} {w : Alloc} {h : Heap} {r : Res σ α} {r' : Res (σ × Heap) (Option α)} (o : Out w h r r') :
    (∃ h', r' = r.withHeap h' ∧ h'.enomem = h.enomem ∧ ¬ w.RefusedBetween h h') ∨
    (∃ s' h', r'.BadAlloc s' h' ∧ (h.enomem = true ∨ w.RefusedBetween h h')) := by
  have hn : ∀ {h' : Heap}, Calm w h h' → ¬ w.RefusedBetween h h' := by
    rintro h' hc ⟨i, h1, h2, h3⟩
    rw [hc.granted i h1 h2] at h3
    cases h3
  cases o with
  | oom hb => exact .inr ⟨_, _, rfl, hb.why⟩
  | ok hc => exact .inl ⟨_, rfl, hc.enomem, hn hc⟩
  | exc hc => exact .inl ⟨_, rfl, hc.enomem, hn hc⟩
  | ub => exact .inl ⟨h, rfl, rfl, hn (Calm.refl _ _)⟩
  | nofuel => exact .inl ⟨h, rfl, rfl, hn (Calm.refl _ _)⟩

/-- C65.  Whatever requests are refused, a call does exactly what it does when none is refused, and then none was; or
`std::bad_alloc` leaves it, and then one was, or `errno` was ENOMEM before the call. -/
theorem C65_as_with_memory_or_bad_alloc (w : Alloc) (x : Ctx) (op : Op) (s : Parser) (h : Heap) :
    (∃ h', op.execF w x (s, h) = (op.exec x s).withHeap h' ∧ h'.enomem = h.enomem ∧ ¬ w.RefusedBetween h h') ∨
    (∃ s' h', (op.execF w x (s, h)).BadAlloc s' h' ∧ (h.enomem = true ∨ w.RefusedBetween h h')) :=
  (follows_exec x op s h).spell

/-- C65, the constructors -/
theorem C65_construction (w : Alloc) (x : Ctx) (h : Heap) :
    ((∃ h', newFileF w x ({}, h) = (newFile x {}).withHeap h' ∧ h'.enomem = h.enomem ∧ ¬ w.RefusedBetween h h') ∨
     (∃ s' h', (newFileF w x ({}, h)).BadAlloc s' h' ∧ (h.enomem = true ∨ w.RefusedBetween h h'))) ∧
    ((∃ h', newBufferF w x ({}, h) = (newBuffer x {}).withHeap h' ∧ h'.enomem = h.enomem ∧ ¬ w.RefusedBetween h h') ∨
     (∃ s' h', (newBufferF w x ({}, h)).BadAlloc s' h' ∧ (h.enomem = true ∨ w.RefusedBetween h h'))) :=
  ⟨(follows_newFile x {} h).spell, (follows_newBuffer x {} h).spell⟩

/-- C65.  When nothing is refused and `errno` is not ENOMEM, `std::bad_alloc` leaves no call. -/
theorem C65_enough_memory {w : Alloc} (hw : ∀ i, w.refuses i = false) (x : Ctx) (op : Op) (s : Parser) {h : Heap} (he : h.enomem = false) :
    ∃ h', op.execF w x (s, h) = (op.exec x s).withHeap h' ∧ h'.enomem = false := by
  rcases C65_as_with_memory_or_bad_alloc w x op s h with ⟨h', h1, h2, _⟩ | ⟨s', h', _, h2 | ⟨i, _, _, h3⟩⟩
  · exact ⟨h', h1, h2.trans he⟩
  · rw [he] at h2; cases h2
  · rw [hw] at h3; cases h3

/-! ## The life of a parser -/

/-- The life of a parser when requests may be refused.  `Life w x true s h`: it may be used.  `Life w x false s h`: `std::bad_alloc`
has left one of its calls, and since then `ignore_next` has not returned true.  In between, the rest of the program may do
anything to `errno`. -/
inductive Life (w : Alloc) (x : Ctx) : Bool → Parser → Heap → Prop
  /-- a constructor has returned -/
  | file {u : Bool} {d : Bytes} {h h' : Heap} {s : Parser} : x.src = .file u d → newFileF w x ({}, h) = .ok (some ()) (s, h') → Life w x true s h'
  | missing {h h' : Heap} {s : Parser} : x.src = .buf none 0 → newFileF w x ({}, h) = .ok (some ()) (s, h') → Life w x true s h'
  | buffer {p : Option Bytes} {n : Nat} {h h' : Heap} {s : Parser} : x.src = .buf p n → newBufferF w x ({}, h) = .ok (some ()) (s, h') → Life w x true s h'
  /-- a call has returned, or thrown an `ss::exception` -/
  | returned {s s' : Parser} {h h' : Heap} {op : Op} {r : Ret} : Life w x true s h → op.execF w x (s, h) = .ok (some r) (s', h') → Life w x true s' h'
  | threw {s s' : Parser} {h h' : Heap} {op : Op} {e : Bytes} : Life w x true s h → op.execF w x (s, h) = .exc e (s', h') → Life w x true s' h'
  /-- `std::bad_alloc` has left a call -/
  | badAlloc {s s' : Parser} {h h' : Heap} {op : Op} : Life w x true s h → (op.execF w x (s, h)).BadAlloc s' h' → Life w x false s' h'
  /-- then `ignore_next` is called until it returns true -/
  | ignored {s s' : Parser} {h h' : Heap} {b : Bool} : Life w x false s h → Op.ignoreNext.execF w x (s, h) = .ok (some (.flag b)) (s', h') → Life w x b s' h'
  | again {s s' : Parser} {h h' : Heap} : Life w x false s h → (Op.ignoreNext.execF w x (s, h)).BadAlloc s' h' → Life w x false s' h'
  /-- `errno` -/
  | errno {b e : Bool} {s : Parser} {h : Heap} : Life w x b s h → Life w x b s { h with enomem := e }

theorem Out.created {σ α : Type} {w : Alloc} {h : Heap} {r : Res σ α} {a : α} {s : σ} {h' : Heap} (o : Out w h r (.ok (some a) (s, h'))) :
    r = .ok a s := by cases o; rfl

theorem Life.fit {w : Alloc} {x : Ctx} (hx : x.Ok) (hm : x.cfg.multiline = false) {b : Bool} {s : Parser} {h : Heap} (hl : Life w x b s h) :
    Lost x s ∧ (b = true → Fit x s) := by
  have hc : ∀ {s : Parser}, Created x s → Lost x s ∧ (true = true → Fit x s) := fun h => ⟨(h.fit (hx.good hm)).lost, fun _ => h.fit (hx.good hm)⟩
  induction hl with
  | file hs hn =>
    exact hc (.file hs (Out.created (hn ▸ follows_newFile (w := w) x {} _)))
  | missing hs hn =>
    exact hc (.missing hs (Out.created (hn ▸ follows_newFile (w := w) x {} _)))
  | buffer hs hn =>
    exact hc (.buffer hs (Out.created (hn ▸ follows_newBuffer (w := w) x {} _)))
  | returned _ he ih =>
    rcases (ih.2 rfl).exec (w := w) hx hm _ _ with ⟨r, s', h', h1, h2⟩ | ⟨e, s', h', h1, h2⟩ | ⟨s', h', h1, h2⟩
    · rw [he] at h1; cases h1; exact ⟨h2.lost, fun _ => h2⟩
    · rw [he] at h1; cases h1
    · rw [he] at h1; cases h1
  | threw _ he ih =>
    rcases (ih.2 rfl).exec (w := w) hx hm _ _ with ⟨r, s', h', h1, h2⟩ | ⟨e, s', h', h1, h2⟩ | ⟨s', h', h1, h2⟩
    · rw [he] at h1; cases h1
    · rw [he] at h1; cases h1; exact ⟨h2.lost, fun _ => h2⟩
    · rw [he] at h1; cases h1
  | badAlloc _ he ih =>
    rcases (ih.2 rfl).exec (w := w) hx hm _ _ with ⟨r, s', h', h1, h2⟩ | ⟨e, s', h', h1, h2⟩ | ⟨s', h', h1, h2⟩
    · rw [he] at h1; cases h1
    · rw [he] at h1; cases h1
    · rw [he] at h1; cases h1; exact ⟨h2, fun h => by cases h⟩
  | ignored _ he ih =>
    rcases ih.1.execIgnore (w := w) hx hm _ with ⟨b, s', h', h1, h2, h3⟩ | ⟨s', h', h1, h2⟩
    · rw [he] at h1; cases h1; exact ⟨h2, h3⟩
    · rw [he] at h1; cases h1
  | again _ he ih =>
    rcases ih.1.execIgnore (w := w) hx hm _ with ⟨b, s', h', h1, h2, h3⟩ | ⟨s', h', h1, h2⟩
    · rw [he] at h1; cases h1
    · rw [he] at h1; cases h1; exact ⟨h2, fun h => by cases h⟩
  | errno _ ih => exact ih

/-- C65.  Without multiline: whatever requests are refused, no call on a usable parser has undefined behaviour, and neither has
`ignore_next` on a parser for which memory ran out.  Missing: other calls than `ignore_next` there
(`C65_get_next_after_bad_alloc`), and multiline (`C65_multiline_append`). -/
theorem C65_defined_partial {w : Alloc} {x : Ctx} (hx : x.Ok) (hm : x.cfg.multiline = false) {b : Bool} {s : Parser} {h : Heap} (hl : Life w x b s h)
    {op : Op} (hop : b = true ∨ op = .ignoreNext) :
    (∃ r s' h', op.execF w x (s, h) = .ok (some r) (s', h')) ∨ (∃ e s' h', op.execF w x (s, h) = .exc e (s', h')) ∨
    (∃ s' h', (op.execF w x (s, h)).BadAlloc s' h') := by
  rcases hop with rfl | rfl
  · rcases ((hl.fit hx hm).2 rfl).exec (w := w) hx hm h op with ⟨r, s', h', h1, _⟩ | ⟨e, s', h', h1, _⟩ | ⟨s', h', h1, _⟩
    · exact .inl ⟨_, _, _, h1⟩
    · exact .inr (.inl ⟨_, _, _, h1⟩)
    · exact .inr (.inr ⟨_, _, h1⟩)
  · rcases (hl.fit hx hm).1.execIgnore (w := w) hx hm h with ⟨b, s', h', h1, _⟩ | ⟨s', h', h1, _⟩
    · exact .inl ⟨_, _, _, h1⟩
    · exact .inr (.inr ⟨_, _, h1⟩)

/-- C65.  A parser of a buffer, without multiline, at any usable point of such a life: `position()` is where the next row
begins, also behind `std::bad_alloc`; `get_next` (when `std::bad_alloc` does not leave it) yields exactly the values that a newly
made converter yields for the rest of the line there, and then the lines that follow are the next ones.  Missing: files, whose
position is not right any more behind `std::bad_alloc`; where the row begins in its line, see `C65_rest_of_a_line`. -/
theorem C65_row_partial {w : Alloc} {x : Ctx} (hx : x.Ok) (hm : x.cfg.multiline = false) (hb : x.src.isBuf) {s : Parser} {h : Heap}
    (hl : Life w x true s h) {rs : List Req} (hrs : rs ≠ []) {l : Bytes} {ls : List Bytes} (hr : lines (x.src.data.drop s.position) = l :: ls) :
    (∀ vs, Parser.Yields x (Parser.getNext x rs s) vs ↔ Ssp.Yields x.cfg (s.fresh x rs l) vs) ∧
    ((∃ m, Parser.Fails x (Parser.getNext x rs s) m) ↔ ∀ vs, ¬ Ssp.Yields x.cfg (s.fresh x rs l) vs) ∧
    (∀ s', ((∃ v, Parser.getNext x rs s = .ok v s') ∨ ∃ e, Parser.getNext x rs s = .exc e s') → x.cfg.ignoreEmpty = false →
      lines (x.src.data.drop s'.position) = ls) := by
  obtain ⟨t, hp, hi⟩ := (hl.fit hx hm).2 rfl
  have hpos : s.position = t.rd.pos := hp.base.pos (.inr hb)
  rw [hpos] at hr
  have hlt : t.rd.pos < x.src.data.length := by
    refine Nat.lt_of_not_le fun h => ?_
    rw [List.drop_eq_nil_iff.mpr h] at hr
    simp [lines, rawLines] at hr
  obtain ⟨l', h1, h2⟩ := (hi.spot hb).here hlt
  unfold lines at hr
  rw [h1, List.map_cons] at hr
  obtain ⟨rfl, hls⟩ := List.cons.inj hr
  have he : t.eof = false := by
    cases he : t.eof with
    | false => rfl
    | true =>
      have := hi.past he hb
      omega
  obtain ⟨e, c', n', _, ho⟩ := getNext_row' hm (rs := rs) (hi.clean he) he
  obtain ⟨s1, hp', hout⟩ := getNext_parser (hx.good hm) hp ho
  have hy : ∀ vs, Parser.Yields x (Parser.getNext x rs s) vs ↔ Ssp.Yields x.cfg (s.fresh x rs (chop l')) vs :=
    fun vs => (hout.yields_iff vs).trans (rowRes_yields hx hm hp hrs h2 vs)
  refine ⟨hy, (Parser.fails_iff_not_yields hout).trans (forall_congr' fun vs => not_congr (hy vs)), fun s' hs' hie => ?_⟩
  have hs1 : s' = s1 := by
    unfold RowOut at hout
    rcases hs' with ⟨v, hs'⟩ | ⟨e, hs'⟩
    · rw [hs'] at hout
      split at hout
      · cases hout.1; rfl
      · split at hout
        · cases hout
        · obtain ⟨_, h, _⟩ := hout; cases h; rfl
    · rw [hs'] at hout
      split at hout
      · cases hout.1
      · split at hout
        · cases hout; rfl
        · obtain ⟨_, h, _⟩ := hout; cases h
  subst hs1
  have hsp : MSpot x { t.rd with cur := c', next := n' } := ⟨(hi.spot hb).todo, (hi.spot hb).here⟩
  have h3 := (MRd.readR_spot hsp.todo).2.2.2.2.1 hie
  have h4 : s'.position = t.rd.off := (hp'.base.pos (.inr hb)).trans h3
  rw [h4]
  unfold lines
  rw [← (hi.spot hb).todo]
  exact hls

/-! ## Cases -/

namespace Demo

/-- what becomes of a call -/
inductive Fate
  | gave (r : Ret)
  | threw (e : Bytes)
  | badAlloc
  | undefined
  deriving DecidableEq

/-- calls on a parser of a buffer, when the requests with the given numbers are refused, and `errno` before each call -/
def fates (refused : List Nat) (x : Ctx) : List (Bool × Op) → Parser × Heap → List Fate
  | [], _ => []
  | (e, op) :: ops, p =>
    match op.execF ⟨fun i => refused.contains i, fun _ => 0⟩ x (p.1, { p.2 with enomem := e }) with
    | .ok (some r) p' => .gave r :: fates refused x ops p'
    | .exc m p' => .threw m :: fates refused x ops p'
    | .ok none p' => .badAlloc :: fates refused x ops p'
    | _ => [.undefined]

/-- the same from the constructor on -/
def life (refused : List Nat) (c : Cfg) (d : String) (ops : List (Bool × Op)) : Option (List Fate) :=
  match newBufferF ⟨fun i => refused.contains i, fun _ => 0⟩ (ctx c d) ({}, {}) with
  | .ok (some _) p => some (fates refused (ctx c d) ops p)
  | _ => none

end Demo

open Demo

/-- C65: memory runs out when `get_next` reads the second line ahead.  The first row is lost; behind `ignore_next` the parser goes
on with the second one. -/
example : life [1] cs "a,1\nb,2\nc,3" [(false, .getNext [str, num]), (false, .ignoreNext), (false, .getNext [str, num]), (false, .getNext [str, num])] =
    some [.badAlloc, .gave (.flag true), .gave (.row (some [.str (bs "b"), .int 2])), .gave (.row (some [.str (bs "c"), .int 3]))] := by
  decide +kernel

/-- C65: without the `ignore_next`, the next call has undefined behaviour: it splits a line that was never read. -/
theorem C65_get_next_after_bad_alloc :
    life [1] cs "a,1\nb,2\nc,3" [(false, .getNext [str, num]), (false, .getNext [str, num])] = some [.badAlloc, .undefined] := by
  decide +kernel

/-- C65: nothing is refused, but `errno` is ENOMEM from some other function: at the end of the input `std::bad_alloc` is thrown,
and the last row is lost. -/
theorem C65_stale_errno :
    life [] cs "a,1\nb,2" [(false, .getNext [str, num]), (true, .getNext [str, num])] =
      some [.gave (.row (some [.str (bs "a"), .int 1])), .badAlloc] := by
  decide +kernel

/-- a line of 200 letters behind a short one -/
def Demo.longText : String := "a,1\n" ++ String.join (List.replicate 200 "x") ++ ",2\nc,3"

/-- C65: memory runs out while a long line is read ahead (127 of its bytes were read).  Behind `ignore_next` the rest of that line
counts as a row: 73 of the 200 letters. -/
theorem C65_rest_of_a_line :
    life [2] cs longText [(false, .getNext [str, num]), (false, .ignoreNext), (false, .getNext [str, num]), (false, .getNext [str, num])] =
      some [.badAlloc, .gave (.flag true), .gave (.row (some [.str (List.replicate 73 (UInt8.ofNat 'x'.toNat)), .int 2])),
        .gave (.row (some [.str (bs "c"), .int 3]))] := by
  decide +kernel

/-- a quoted field of two lines of 100 letters, and a line of 200 letters -/
def Demo.longQuoted : String :=
  "\"" ++ String.join (List.replicate 100 "x") ++ "\n" ++ String.join (List.replicate 100 "y") ++ "\"\n" ++
    String.join (List.replicate 200 "z") ++ "\nc"

/-- C65, with multiline: memory runs out when the second line of a row is appended to the first.  The size of the block has been
changed already, so the longer line that is read into it next is written beyond its end. -/
theorem C65_multiline_append :
    life [2] cm longQuoted [(false, .getNext [str]), (false, .ignoreNext), (false, .ignoreNext)] = some [.badAlloc, .undefined] := by
  decide +kernel

namespace Demo

/-- the state behind a call -/
def behind {α : Type} (r : Res (Parser × Heap) α) : Parser × Heap :=
  match r with
  | .ok _ p => p
  | _ => ({}, {})

theorem behind_ok {α : Type} [DecidableEq α] {r : Res (Parser × Heap) α} {a : α} (h : (match r with | .ok b _ => decide (b = a) | _ => false) = true) :
    r = .ok a ((behind r).1, (behind r).2) := by
  cases r with
  | ok b p => have := of_decide_eq_true h; subst this; rfl
  | exc _ _ => cases h
  | ub => cases h
  | nofuel => cases h

def second : Alloc := ⟨fun i => [1].contains i, fun _ => 0⟩
def three : Ctx := ctx cs "a,1\nb,2\nc,3"
def made : Parser × Heap := behind (newBufferF second three ({}, {}))
def broken : Parser × Heap := behind (Op.execF second three (.getNext [str, num]) (made.1, made.2))
def healed : Parser × Heap := behind (Op.execF second three .ignoreNext (broken.1, broken.2))

end Demo

/-- C65, with multiline: the overrun in numbers.  When memory runs out as the second line of the row is appended, the parser takes its
block of 128 bytes for one of 206, so a line of up to 205 bytes would next be written into it. -/
theorem C65_multiline_overrun :
    let p := behind (Op.execF ⟨fun i => [2].contains i, fun _ => 0⟩ (ctx cm longQuoted) (.getNext [str])
      (behind (newBufferF ⟨fun i => [2].contains i, fun _ => 0⟩ (ctx cm longQuoted) ({}, {}))))
    (p.1.rd.next.conv.spl.mem.length, p.1.rd.next.size) = (128, 206) := by
  decide +kernel

/-- the hypotheses of `C65_defined_partial` and `C65_row_partial` are met by a parser for which memory ran out, and when it has recovered -/
example : three.Ok ∧ three.cfg.multiline = false ∧ three.src.isBuf ∧ Life second three false broken.1 broken.2 ∧
    Life second three true healed.1 healed.2 ∧ lines (three.src.data.drop healed.1.position) = [bs "b,2", bs "c,3"] := by
  have h1 : Life second three true made.1 made.2 := .buffer rfl (behind_ok (by decide +kernel))
  have h2 : Life second three false broken.1 broken.2 := h1.badAlloc (behind_ok (by decide +kernel))
  exact ⟨ok cs cs_wf _, rfl, trivial, h2, h2.ignored (b := true) (behind_ok (by decide +kernel)), by decide +kernel⟩

end Ssp
