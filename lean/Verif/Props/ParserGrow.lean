import Verif.Proofs.GrowParser
import Verif.Props.ParserMultiline
/-!
# C63: what is appended to the input changes nothing of what was read before
-/
namespace Ssp
open Parser

/-- a parser without a line -/
theorem Parser.world_start {x : Ctx} : (Parser.world x).I {} := by
  refine ⟨⟨⟨rfl, rfl, rfl⟩, ?_⟩, fun h => by cases h⟩
  show x.src.data.count LF ≤ 0 + (x.src.unread 0 0).count LF
  cases hs : x.src with
  | file u d => simp [Src.data, Src.unread]
  | buf p n => cases p <;> simp [Src.data, Src.unread]

/-- C63.  `src'` is the input of a parser with bytes appended.  Whatever calls are made on a parser of the one and on a
parser of the other - rows of any types, chains, ignored rows, header calls, selections, in any mode, with multi-line rows or
not -, they return the same values, set the same errors, throw the same exceptions, and report the same positions and lines,
as long as the last complete line of the shorter input was not passed: `line()` is less than the number of its newlines. -/
theorem C63_appended {x : Ctx} {src' : Src} (hg : x.src.Grown src') (hf : x.src.Fine) {s0 s : Parser} (h0 : Created x s0)
    {ops : List Op} {os : List Obs} (h : run x ops s0 = some (os, s)) (hl : s.line < x.src.data.count LF) :
    Created { x with src := src' } s0 ∧ run { x with src := src' } ops s0 = some (os, s) := by
  have key : (Parser.world x).I s0 ∧ (Created { x with src := src' } s0 ∨ (Parser.world x).P s0) := by
    cases h0 with
    | @file u d hs hn =>
      have hn' : firstLine x {} = .ok () s0 := by unfold newFile at hn; rw [hs] at hn; exact hn
      obtain ⟨a, _, c⟩ := (ext_firstLine hg hf).ok _ world_start _ _ hn'
      refine ⟨a, c.imp_left fun c => ?_⟩
      rw [hs] at hg
      cases hg
      exact .file rfl c
    | missing hs => rw [hs] at hg; cases hg
    | @buffer p n hs hn =>
      cases p with
      | none => rw [hs] at hg; cases hg
      | some p =>
        have hn' : firstLine x {} = .ok () s0 := by unfold newBuffer at hn; rw [hs] at hn; exact hn
        obtain ⟨a, _, c⟩ := (ext_firstLine hg hf).ok _ world_start _ _ hn'
        refine ⟨a, c.imp_left fun c => ?_⟩
        rw [hs] at hg
        cases hg
        exact .buffer rfl c
  have no : ¬ (Parser.world x).P s := by
    intro hp
    have hp : x.src.data.count LF < s.rd.lineNumber := hp.2
    have : s.line = s.rd.lineNumber - 1 := by unfold Parser.line; rw [if_pos (by omega)]
    omega
  obtain ⟨_, b, c⟩ := run_grow hg hf ops key.1 h
  exact ⟨key.2.resolve_right fun hp => no ((Parser.world x).stayP _ _ b hp), c.resolve_right no⟩

namespace Demo

/-- the observations of a run on a buffer, and the line reached -/
def seen (c : Cfg) (d : String) (ops : List Op) : Option (List Obs × Nat) :=
  (Parser.run (ctx c d) ops (start c d)).map fun p => (p.1, p.2.line)

end Demo

open Demo in
/-- the hypotheses hold of a run over two of three lines, one of them bad: the third line can go on with anything -/
example (e : Bytes) : ∃ os s, Parser.run (ctx cs "a,1\nb,x\nc,3\nd") [.getNext [str, num], .getNext [str, num]] (start cs "a,1\nb,x\nc,3\nd") =
    some (os, s) ∧ os.length = 2 ∧
    Parser.run { ctx cs "a,1\nb,x\nc,3\nd" with src := .buf (some (bs "a,1\nb,x\nc,3\nd" ++ e)) (bs "a,1\nb,x\nc,3\nd" ++ e).length }
      [.getNext [str, num], .getNext [str, num]] (start cs "a,1\nb,x\nc,3\nd") = some (os, s) := by
  cases h : Parser.run (ctx cs "a,1\nb,x\nc,3\nd") [.getNext [str, num], .getNext [str, num]] (start cs "a,1\nb,x\nc,3\nd") with
  | none =>
    have : (Parser.run (ctx cs "a,1\nb,x\nc,3\nd") [.getNext [str, num], .getNext [str, num]] (start cs "a,1\nb,x\nc,3\nd")).isSome := by
      decide +kernel
    rw [h] at this; cases this
  | some p =>
    obtain ⟨os, s⟩ := p
    have hl : (Parser.run (ctx cs "a,1\nb,x\nc,3\nd") [.getNext [str, num], .getNext [str, num]] (start cs "a,1\nb,x\nc,3\nd")).all
        (fun p => p.2.line < (ctx cs "a,1\nb,x\nc,3\nd").src.data.count LF) = true := by decide +kernel
    rw [h] at hl
    refine ⟨os, s, rfl, run_length _ h, ?_⟩
    exact (C63_appended (x := ctx cs "a,1\nb,x\nc,3\nd") .buf rfl (created cs_wf rfl _) h (of_decide_eq_true hl)).2

open Demo in
/-- the bound is sharp: behind the last complete line, `eof()` is not the same -/
example : (seen cs "a,1\n" [.getNext [str, num]], seen cs "a,1\nb,2\n" [.getNext [str, num]]) =
    (some ([⟨.row (some [.str (bs "a"), .int 1]), true, [], true, 1, 4⟩], 1),
     some ([⟨.row (some [.str (bs "a"), .int 1]), true, [], false, 1, 4⟩], 1)) := by decide +kernel

end Ssp
