import Verif.Proofs.Memory
import Verif.Props.ParserGrow
/-!
# C64: the memory a parser takes
-/
namespace Ssp
open Parser

/-- the sizes of the blocks a parser has allocated for lines: the row, the line read ahead, and the line to be appended -/
def Parser.blocks (s : Parser) : List Nat :=
  [s.rd.cur.conv.spl.mem.length, s.rd.next.conv.spl.mem.length, s.rd.helper.length]

theorem Parser.Reach.blocks_le {x : Ctx} {L G B : Nat} (hx : Reader.Fit x L G B) {s : Parser} (h : Reach x s) : ∀ n ∈ s.blocks, n ≤ B := by
  obtain ⟨s0, ops, os, h0, hr⟩ := h
  have hi : Small B {} := ⟨⟨rfl, rfl, rfl⟩, by simp, by simp, by simp⟩
  have herr : ∀ m, Hoare (Ready x L B) (do
      handleError x.cfg m
      M.modify fun s => { s with eof := true }) (fun _ => Ready x L B) (Ready x L B) :=
    fun m => Hoare.bind (hq (quiet_handleError x.cfg m)) fun _ => Hoare.modify fun s i => i
  have hnew : Ready x L B s0 := by
    cases h0 with
    | file hs hn => unfold newFile at hn; rw [hs] at hn; exact (hoare_firstLine hx).ok _ hi _ _ hn
    | missing hs hn =>
      unfold newFile at hn
      rw [hs] at hn
      exact (herr _).ok _ ⟨hi, .inl (by unfold Reader.left; rw [hs]; rfl)⟩ _ _ hn
    | @buffer p n hs hn =>
      unfold newBuffer at hn
      rw [hs] at hn
      cases p with
      | none => exact (herr _).ok _ ⟨hi, .inl (by unfold Reader.left; rw [hs]; rfl)⟩ _ _ hn
      | some p => exact (hoare_firstLine hx).ok _ hi _ _ hn
  have hf := (run_ready hx ops hnew hr).1
  intro n hn
  simp only [blocks, List.mem_cons, List.not_mem_nil, or_false] at hn
  rcases hn with rfl | rfl | rfl
  · exact hf.cur
  · exact hf.next
  · exact hf.helper

section
variable {x : Ctx} {L G : Nat} {s : Parser} (hf : x.src.Fine) (hG : ∀ t, x.env.grow t ≤ G)
  (hL : ∀ l ∈ rawLines x.src.data, l.length ≤ L) (h : Reach x s)
include hf hG hL h

/-- C64.  A parser without `multiline` never holds more than three blocks of twice the longest line (with its terminator), or
of 128 bytes, however long the input is and whatever was called.  `G` is what the `getline` of the system allocates more than
it needs. -/
theorem C64_memory (hm : x.cfg.multiline = false) : ∀ n ∈ s.blocks, n ≤ max 128 (2 * L + 1 + G) :=
  h.blocks_le (L := L) (G := G) ⟨hf, hG, hL, by omega, by omega, fun e => by rw [hm] at e; cases e⟩

/-- C64.  With `multiline_restricted<m>` and quotes that are never closed: `m + 1` lines at most. -/
theorem C64_memory_restricted (hm : 0 < x.cfg.mlLimit) : ∀ n ∈ s.blocks, n ≤ max 128 (max (2 * L + 1 + G) ((x.cfg.mlLimit + 1) * L + 3)) :=
  h.blocks_le (L := L) (G := G) ⟨hf, hG, hL, by omega, by omega, fun _ => .inr ⟨hm, by omega⟩⟩

/-- C64.  In any case, and with `multiline`: not more than the input. -/
theorem C64_memory_multiline : ∀ n ∈ s.blocks, n ≤ max 128 (max (2 * L + 1 + G) (x.src.data.length + 3)) :=
  h.blocks_le (L := L) (G := G) ⟨hf, hG, hL, by omega, by omega, fun _ => .inl (by omega)⟩

end

namespace Demo

/-- the blocks after some calls -/
def blocksAfter (c : Cfg) (d : String) (ops : List Op) : Option (List Nat) :=
  (Parser.run (ctx c d) ops (start c d)).map fun p => p.2.blocks

theorem run_reach {x : Ctx} {s0 s : Parser} {ops : List Op} {os : List Obs} (h : Parser.Created x s0) (hr : Parser.run x ops s0 = some (os, s)) :
    Parser.Reach x s := ⟨s0, ops, os, h, hr⟩

/-- lines of three bytes, the first of which opens a quote that is never closed -/
def openText : String := "\"a\n" ++ String.join (List.replicate 50 "ab\n")

end Demo

open Demo in
/-- the hypotheses of `C64_memory_restricted` hold of the parser of `openText`; whatever is called, three times 128 bytes do -/
example : ∃ x : Ctx, x.cfg = cl ∧ x.src = .buf (some (bs openText)) (bs openText).length ∧ (∃ s, Parser.Reach x s) ∧
    ∀ s, Parser.Reach x s → ∀ n ∈ s.blocks, n ≤ 128 := by
  refine ⟨{ ctx cl openText with env := ⟨fun _ i => UInt8.ofNat i, fun _ => 0⟩ }, rfl, rfl, ?_, fun s h => ?_⟩
  · have hk := ok cl cl_wf openText
    obtain ⟨s, hs⟩ := (C54_construction_multiline (x := { ctx cl openText with env := ⟨fun _ i => UInt8.ofNat i, fun _ => 0⟩ })
      ⟨hk.wf, hk.delim, hk.delim0, hk.fine⟩).2.1 (bs openText) (bs openText).length rfl
    exact ⟨s, (Parser.Created.buffer rfl hs).reach⟩
  · have hl : ∀ l ∈ rawLines (ctx cl openText).src.data, l.length ≤ 3 := by decide +kernel
    have hb := C64_memory_restricted (x := { ctx cl openText with env := ⟨fun _ i => UInt8.ofNat i, fun _ => 0⟩ }) (L := 3) (G := 0)
      (ok cl cl_wf openText).fine (fun _ => Nat.le_refl 0) hl h (Nat.le_refl 1)
    exact hb

open Demo in
/-- short lines take 128 bytes each; an open quote takes in the whole input with `multiline`, but not with a limit -/
example : (blocksAfter cq openText [.getNext [str], .getNext [str]], blocksAfter cm openText [.getNext [str]],
    blocksAfter cl openText [.getNext [str]]) = (some [128, 128, 0], some [155, 0, 128], some [8, 128, 128]) := by decide +kernel

end Ssp
