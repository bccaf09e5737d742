import Verif.Props.Progress
import Verif.Proofs.Resume
import Verif.Proofs.Chars
/-!
# `position()` never goes back (C80)
-/
namespace Ssp
open Spec

namespace Posn

theorem raw_nonempty {ls : List Bytes} (h : RawList ls) : ∀ l ∈ ls, l ≠ [] := by
  induction h with
  | nil => intro l hl; cases hl
  | last h1 _ => intro l hl; simp at hl; rw [hl]; exact h1
  | cons _ _ ih =>
    intro l hl
    rcases List.mem_cons.1 hl with e | hl
    · rw [e]; simp
    · exact ih l hl

theorem take_le {ls : List Bytes} {m n : Nat} (h : m ≤ n) : (ls.take m).flatten.length ≤ (ls.take n).flatten.length := by
  obtain ⟨k, rfl⟩ := Nat.exists_eq_add_of_le h
  rw [List.take_add, List.flatten_append, List.length_append]
  omega

theorem take_lt {ls : List Bytes} (hr : RawList ls) {m n : Nat} (h : m < n) (hm : m < ls.length) :
    (ls.take m).flatten.length < (ls.take n).flatten.length := by
  refine Nat.lt_of_lt_of_le ?_ (take_le (ls := ls) (Nat.succ_le_of_lt h))
  rw [List.take_add_one, List.flatten_append, List.length_append, List.getElem?_eq_getElem hm]
  have := List.length_pos_iff.2 (raw_nonempty hr _ (List.getElem_mem hm))
  simp
  omega

theorem rest_nil {x : Ctx} {m n : Nat} (h : m ≤ n) (hr : x.rest m = []) : x.rest n = [] := by
  obtain ⟨k, rfl⟩ := Nat.exists_eq_add_of_le h
  unfold Ctx.rest at hr ⊢
  rw [List.filter_eq_nil_iff] at hr ⊢
  rw [← List.drop_drop]
  exact fun a ha => hr a (List.mem_of_mem_drop ha)

theorem obs_of {x : Ctx} {s t : Parser} {op : Op} {o : Obs} (h : Parser.step x op s = some (o, t)) :
    o.line = t.line ∧ o.position = t.position := by
  unfold Parser.step at h
  cases hm : op.exec x s with
  | ok r u => rw [hm] at h; cases h; exact ⟨rfl, rfl⟩
  | exc e u => rw [hm] at h; cases h; exact ⟨rfl, rfl⟩
  | ub => rw [hm] at h; cases h
  | nofuel => rw [hm] at h; cases h

end Posn

/-- C80, for lives that are covered (with multiline, a composite is made only where its row can be taken up again; missing: the
others, and a file behind its last row): `position()` never goes back and never lies behind the end of the data, and every `get_next`, `ignore_next` and composite
made while there is a next row moves it on, in any setup, behind any calls.  For a file this is said as long as there is a next
row behind the call; for a buffer always. -/
theorem C80_position_advances_partial {x : Ctx} (hx : x.Ok) (he : x.src.Exists) {s0 s t : Parser} (h0 : Parser.Created x s0) {ops : List Op}
    (hT : Parser.Covered x ops s0) {os : List Obs} (hr : Parser.run x ops s0 = some (os, s)) {op : Op} (hop : op.Tame x s.line s.eof)
    {o : Obs} (h : Parser.step x op s = some (o, t)) (hend : x.rest o.line ≠ [] ∨ x.src.isBuf) :
    s.position ≤ o.position ∧ o.position ≤ x.src.data.length ∧ (op.Advances = true → x.rest s.line ≠ [] → s.position < o.position) := by
  obtain ⟨hl, hadv⟩ := C79_line_advances he hx.fine h0 hr h
  obtain ⟨ho, hop'⟩ := Posn.obs_of h
  have hs : Parser.ReachT x s := ⟨s0, ops, os, h0, hT, hr⟩
  have ht : Parser.ReachT x t := hs.step hop h
  have hfl : ∀ n, ((rawLines x.src.data).take n).flatten.length ≤ x.src.data.length := fun n => by
    have h1 := congrArg List.length (rawLines_flatten x.src.data)
    rw [← List.take_append_drop n (rawLines x.src.data), List.flatten_append, List.length_append] at h1
    omega
  have hlt : ∀ n, n < (rawLines x.src.data).length → ((rawLines x.src.data).take n).flatten.length < x.src.data.length := fun n hn => by
    have h1 := Posn.take_lt (rawLines_rawList x.src.data) hn hn
    have h2 := hfl (rawLines x.src.data).length
    omega
  rw [ho] at hl hadv hend
  rw [hop']
  by_cases hrt : x.rest t.line = []
  · have hb : x.src.isBuf := hend.resolve_left (fun h => h hrt)
    have e := C30_at_end_multiline hx ht hrt hb
    refine ⟨?_, Nat.le_of_eq e, fun _ hne => ?_⟩
    · by_cases hrs : x.rest s.line = []
      · rw [e, C30_at_end_multiline hx hs hrs hb]; exact Nat.le_refl _
      · rw [e, (position_of hx hs hrs).1]; exact hfl _
    · obtain ⟨e1, _, e3⟩ := position_of hx hs hne
      rw [e, e1]
      exact hlt _ e3
  · have hrs : x.rest s.line ≠ [] := fun e => hrt (Posn.rest_nil hl e)
    obtain ⟨e1, _, e3⟩ := position_of hx hs hrs
    obtain ⟨f1, _, _⟩ := position_of hx ht hrt
    rw [e1, f1]
    exact ⟨Posn.take_le hl, hfl _, fun ha _ => Posn.take_lt (rawLines_rawList _) (hadv ha (eof_of hx hs hrs)) e3⟩

namespace Posn

theorem created_up {x : Ctx} {p : Option Bytes} {n : Nat} (hs : x.src = .buf p n) {s : Parser} (h : Parser.Created x s) :
    s.rd.charsRead ≤ s.rd.curr ∧ s.rd.curr ≤ n := by
  have key : ∀ {m : M Parser Unit}, Relates True (Parser.Up n) m → m {} = .ok () s → s.rd.charsRead ≤ s.rd.curr ∧ s.rd.curr ≤ n := fun hm h => by
    have := hm.ok _ _ _ h
    exact ⟨this.low (Nat.le_refl _), this.fit (Nat.zero_le _)⟩
  have herr : ∀ msg, Relates True (Parser.Up n) (Parser.handleError x.cfg msg >>= fun _ => M.modify fun s => { s with eof := true }) := fun msg =>
    Parser.ub (Parser.up_quiet (Parser.quiet_handleError _ _)) fun _ => Parser.up_mod fun _ => rfl
  cases h with
  | file hs' hn => rw [hs] at hs'; cases hs'
  | missing hs' hn => exact key (by unfold Parser.newFile; rw [hs']; exact herr _) hn
  | buffer hs' hn =>
    refine key ?_ hn
    unfold Parser.newBuffer
    rw [hs]
    cases p with
    | none => exact herr _
    | some d => exact Parser.up_firstLine hs

theorem step_up {x : Ctx} {p : Option Bytes} {n : Nat} (hs : x.src = .buf p n) {s t : Parser} {op : Op} {o : Obs}
    (h : Parser.step x op s = some (o, t)) : Parser.Up n s t := by
  have hu := Parser.up_exec hs op
  unfold Parser.step at h
  cases hm : op.exec x s with
  | ok r u => rw [hm] at h; cases h; exact hu.ok _ _ _ hm
  | exc e u => rw [hm] at h; cases h; exact hu.exc _ _ _ hm
  | ub => rw [hm] at h; cases h
  | nofuel => rw [hm] at h; cases h

theorem sorted {x : Ctx} {p : Option Bytes} {n : Nat} (hs : x.src = .buf p n) : ∀ (ops : List Op) {s t : Parser} {os : List Obs},
    s.rd.charsRead ≤ s.rd.curr ∧ s.rd.curr ≤ n → Parser.run x ops s = some (os, t) →
    (s.position :: os.map (·.position)).Pairwise (· ≤ ·) ∧ (∀ o ∈ os, o.position ≤ n) ∧ t.rd.charsRead ≤ t.rd.curr ∧ t.rd.curr ≤ n := by
  intro ops
  induction ops with
  | nil => intro s t os hi h; cases h; simpa using hi
  | cons op ops ih =>
    intro s t os hi h
    unfold Parser.run at h
    cases h1 : Parser.step x op s with
    | none => rw [h1] at h; cases h
    | some q =>
      obtain ⟨o, u⟩ := q
      rw [h1] at h
      simp only at h
      cases h2 : Parser.run x ops u with
      | none => rw [h2] at h; cases h
      | some q =>
        obtain ⟨os', v⟩ := q
        rw [h2] at h
        cases h
        have hu := step_up hs h1
        have hi' : u.rd.charsRead ≤ u.rd.curr ∧ u.rd.curr ≤ n := ⟨hu.low hi.1, hu.fit hi.2⟩
        have e := (obs_of h1).2
        have a1 : s.position ≤ o.position := by rw [e]; exact hu.up hi.1
        have a2 : o.position ≤ n := by rw [e]; exact Nat.le_trans hi'.1 hi'.2
        obtain ⟨b1, b2, b3⟩ := ih hi' h2
        rw [← e] at b1
        refine ⟨?_, ?_, b3⟩
        · rw [List.map_cons, List.pairwise_cons]
          refine ⟨fun p hp => ?_, b1⟩
          rcases List.mem_cons.1 hp with e | hp
          · rw [e]; exact a1
          · exact Nat.le_trans a1 ((List.pairwise_cons.1 b1).1 p hp)
        · intro p hp
          rcases List.mem_cons.1 hp with e | hp
          · rw [e]; exact a2
          · exact b2 p hp

end Posn

/-- C80, buffers, without any condition - any setup, any delimiter, any pointer and size, any calls: the offsets that `position()`
gives in the course of a life are sorted and none lies behind the end of the buffer. -/
theorem C80_positions_sorted {x : Ctx} {p : Option Bytes} {n : Nat} (hs : x.src = .buf p n) {s0 t : Parser} (h0 : Parser.Created x s0)
    {ops : List Op} {os : List Obs} (hr : Parser.run x ops s0 = some (os, t)) :
    (s0.position :: os.map (·.position)).Pairwise (· ≤ ·) ∧ s0.position ≤ n ∧ ∀ o ∈ os, o.position ≤ n := by
  have h := Posn.created_up hs h0
  obtain ⟨h1, h2, _⟩ := Posn.sorted hs ops h hr
  exact ⟨h1, Nat.le_trans h.1 h.2, h2⟩

namespace Demo

/-- C80 at work: rows over more lines, a bad row and a skipped one; the hypotheses hold -/
theorem C80_positions :
    (ctx cm "a,\"1\n2\"\nb,x\nc,3\nd,4\n").src.Exists ∧ (ctx cm "a,\"1\n2\"\nb,x\nc,3\nd,4\n").Ok ∧ (ctx cm "a,\"1\n2\"\nb,x\nc,3\nd,4\n").src.isBuf ∧
    Parser.Created (ctx cm "a,\"1\n2\"\nb,x\nc,3\nd,4\n") (start cm "a,\"1\n2\"\nb,x\nc,3\nd,4\n") ∧
    (runs cm "a,\"1\n2\"\nb,x\nc,3\nd,4\n" [.getNext [str, str], .getNext [str, num], .header, .ignoreNext, .getNext [str, num], .getNext [str]]).map
      (·.position) = [8, 12, 12, 16, 20, 20] := by
  refine ⟨by simp [ctx, Src.Exists], ok _ cm_wf _, trivial, createdM cm_wf _, by decide +kernel⟩

end Demo
end Ssp
