import Verif.Spec.Cost
import Verif.Proofs.ReaderCost
/-! # C71: the work of reading and splitting a whole text -/
namespace Ssp

/-- The counting functions do, apart from counting, exactly what the functions of the model do. -/
theorem C71_counting_changes_nothing (x : Ctx) (s : Reader) :
    (Reader.readNextK x s).1 = Reader.readNext x s ∧ (Reader.parseK x s).1 = Reader.parse x s :=
  ⟨congrFun (Reader.erase_readNext x) s, congrFun (Reader.erase_parse x) s⟩

/-- C71: a text in a data buffer, read without `ss::multiline`: reading and splitting all of its rows - the empty lines that are passed
over, the rows that are refused, the growing of the line buffers and the search for the end included - takes at most
`(2 |delimiter| + 39) * |text| + 257` steps, and ends: there are as many rows as there are lines (that are not passed over). -/
theorem C71_whole_text_is_linear {x : Ctx} {d : Bytes} (hx : x.src = .buf (some d) d.length) (hc : x.cfg.WF) (hd : NUL ∉ x.delim)
    (hml : x.cfg.multiline = false) :
    ∃ n, CountedRows x {} ((rawLines d).filter fun l => ! (x.cfg.ignoreEmpty && chop l == [])).length n ∧
      n ≤ (2 * x.delim.length + 39) * d.length + 257 := by
  have hb : Reader.bound x = d.length + 2 := by unfold Reader.bound; rw [hx]; rfl
  have key : ∀ (k : Nat) (s : Reader), d.length - s.curr < k → s.curr ≤ d.length → s.next.Good → s.cur.Good →
      ∃ n N, CountedRows x s (Reader.rowCount x (d.drop s.curr)) n ∧
        n + s.cur.size + s.next.size ≤ (2 * x.delim.length + 35) * (d.length - s.curr) + 1 + N ∧
        N ≤ max s.cur.size (max 128 (2 * (d.length - s.curr))) + max s.next.size (max 128 (2 * (d.length - s.curr))) := by
    intro k
    induction k with
    | zero => intro s h; omega
    | succ k ih =>
      intro s hk hle hgn hgc
      have hrd : Reader.readNextK x s = Reader.readNextLoopK x (Reader.bound x)
          { s with next := { s.next with conv := { s.next.conv with err := s.next.conv.err.clear x.cfg.mode } } } := by
        unfold Reader.readNextK
        rw [K.bind_of_ok (σ := Reader) (a := ()) (n := 0) (s' := { s with next := { s.next with conv :=
          { s.next.conv with err := s.next.conv.err.clear x.cfg.mode } } }) rfl]
        simp only [Nat.zero_add]
      obtain ⟨b, s1, n, h1, h2, h3, h4, h5, h6, h7, h8, h9, h10⟩ := Reader.readNextLoopK_cost hx (Reader.bound x)
        { s with next := { s.next with conv := { s.next.conv with err := s.next.conv.err.clear x.cfg.mode } } }
        (by rw [hb]; dsimp only; omega)
        ⟨hgn.sized, hgn.big, hgn.idle⟩
      rw [← hrd] at h1
      dsimp only at h2 h4 h5 h6 h7 h8 h9 h10
      have h5 := h5 hle
      rw [h10]
      cases b with
      | false =>
        refine ⟨n, s.cur.size + s1.next.size, .eof h1, ?_, by omega⟩
        have : (7 : Nat) * (s1.curr - s.curr) ≤ (2 * x.delim.length + 35) * (d.length - s.curr) := Nat.mul_le_mul (by omega) (by omega)
        omega
      | true =>
        obtain ⟨hlt, line, T, hh, hlen⟩ := h9 rfl
        obtain ⟨s2, m, g1, g2, g3, g4, g5, g6⟩ := Reader.parseK_cost hc hd hml h3 hh
        have hm : 7 * (s1.curr - s.curr) + 1 + m ≤ (2 * x.delim.length + 35) * (s1.curr - s.curr) := by
          have e1 : (x.delim.length + 13) * (line.length + 1) ≤ (x.delim.length + 13) * (2 * (s1.curr - s.curr)) :=
            Nat.mul_le_mul (Nat.le_refl _) (by omega)
          have e2 : (x.delim.length + 13) * (2 * (s1.curr - s.curr)) + 9 * (s1.curr - s.curr) =
              (2 * x.delim.length + 35) * (s1.curr - s.curr) := by
            rw [← Nat.mul_assoc, ← Nat.add_mul]; congr 1; omega
          omega
        have hsum : (2 * x.delim.length + 35) * (s1.curr - s.curr) + (2 * x.delim.length + 35) * (d.length - s1.curr) =
            (2 * x.delim.length + 35) * (d.length - s.curr) := by rw [← Nat.mul_add]; congr 1; omega
        rw [if_pos rfl, ← g5]
        rcases g1 with g1 | ⟨e, g1⟩
        · obtain ⟨j, N, i1, i2, i3⟩ := ih { s2 with cur := s2.next, next := s2.cur } (by dsimp only; omega) (by dsimp only; omega)
            (by dsimp only; rw [g2, h2]; exact hgc) g3
          dsimp only at i1 i2 i3
          rw [g2, h2, g4, g5] at i2
          rw [g2, h2, g4, g5] at i3
          exact ⟨n + m + j, N, .row h1 g1 rfl i1, by omega, by omega⟩
        · obtain ⟨j, N, i1, i2, i3⟩ := ih s2 (by omega) (by omega) g3 (by rw [g2, h2]; exact hgc)
          rw [g2, h2, g4, g5] at i2
          rw [g2, h2, g4, g5] at i3
          exact ⟨n + m + j, N, .thrown h1 g1 i1, by omega, by omega⟩
  obtain ⟨n, N, h1, h2, h3⟩ := key (d.length + 1) {} (by dsimp only; omega) (by simp) ⟨rfl, .inl rfl, rfl⟩ ⟨rfl, .inl rfl, rfl⟩
  refine ⟨n, h1, ?_⟩
  dsimp only at h2 h3
  have e : (2 * x.delim.length + 39) * d.length = (2 * x.delim.length + 35) * d.length + 4 * d.length := by rw [← Nat.add_mul]
  simp only [Nat.sub_zero] at h2 h3
  omega

def Demo.costText : Bytes := bs "a,b\n\n\"c\"d,e\nf"
def Demo.costCfg : Cfg := { quote := some 34, ignoreEmpty := true, mode := .throw }
def Demo.costCtx : Ctx := ⟨Demo.costCfg, ⟨fun _ _ => 7, fun _ => 0⟩, .buf (some Demo.costText) Demo.costText.length, bs ",", [], false⟩
theorem Demo.costCfg_wf : Demo.costCfg.WF := by constructor <;> simp [Demo.costCfg] <;> decide

/-- the hypotheses are met, by a text with an empty line, a refused row and a line without a line feed at its end -/
example : ∃ n, CountedRows Demo.costCtx {} 3 n ∧ n ≤ 790 := by
  obtain ⟨n, h1, h2⟩ := C71_whole_text_is_linear (x := Demo.costCtx) (d := Demo.costText) rfl Demo.costCfg_wf (by decide) rfl
  exact ⟨n, h1, h2⟩

end Ssp
