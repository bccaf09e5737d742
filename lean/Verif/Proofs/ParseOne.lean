import Verif.Proofs.MachineSim
import Verif.Spec.Parser
/-!
# `parse` without multiline follows the row machine
-/
namespace Ssp
open Spec

theorem cutNul_nul (t : Bytes) : NUL ∉ cutNul t := by
  unfold cutNul
  induction t with
  | nil => simp
  | cons b t ih =>
    by_cases hb : b = NUL
    · simp [hb]
    · simp only [List.takeWhile, ne_eq, hb, not_false_eq_true, decide_true, List.mem_cons, not_or]
      exact ⟨fun h => hb h.symm, ih⟩

/-- the reader with another splitter in the next line converter -/
def Reader.setSpl (s : Reader) (sp : Spl) : Reader :=
  { s with next := { s.next with conv := { s.next.conv with spl := sp } } }

theorem onNext_ok {α : Type} {m : M Conv α} {s : Reader} {a : α} {cv : Conv} (h : m s.next.conv = .ok a cv) :
    Reader.onNext m s = .ok a { s with next := { s.next with conv := cv } } := by simp [Reader.onNext, h]
theorem onNext_exc {α : Type} {m : M Conv α} {s : Reader} {e : Bytes} {cv : Conv} (h : m s.next.conv = .exc e cv) :
    Reader.onNext m s = .exc e { s with next := { s.next with conv := cv } } := by simp [Reader.onNext, h]

theorem RBase.setSpl {x : Ctx} {s : Reader} {a : MRd} (h : RBase x s a) {sp : Spl} {serr : ErrSt} {cols : Option (List Bytes)}
    (hl : sp.mem.length = s.next.conv.spl.mem.length) (he : sp.err = serr)
    (hc : ∀ cs, cols = some cs → Readable sp ∧ sp.columns = cs) :
    RBase x (s.setSpl sp) { a with next := { a.next with serr := serr, cols := cols } } where
  cur := h.cur
  next := ⟨h.next.err, he, h.next.sel, h.next.ncols, h.next.sized.trans hl.symm, hc⟩
  selok := h.selok
  helper := h.helper
  todo := h.todo
  ln := h.ln
  done := h.done
  curr := h.curr
  chars := h.chars

theorem field_normal_nil (c : Cfg) (d acc : Bytes) : field c d .normal acc [] = .last acc .eol := by
  unfold field
  simp only [List.dropWhile_nil]

theorem decodeRow_nil (c : Cfg) (d : Bytes) : decodeRow c d [] = ([[]], .eol) := by
  show decode c d .normal [] [] = _
  unfold decode
  have := field_normal_nil c d []
  split
  · rename_i h; rw [this] at h; cases h
  · rename_i h; rw [this] at h; cases h; rfl
  · rename_i h; rw [this] at h; cases h

theorem decodeRow_nil_closed (c : Cfg) (d : Bytes) : (decodeRow c d []).2.isOpenQuote = false := by
  rw [decodeRow_nil]; rfl

/-- the split of the text read ahead -/
theorem splitText_sim {x : Ctx} (hx : x.Ok) {s : Reader} {a : MRd} (h : RBase x s a) (hl : RLook s a)
    (hi : s.next.Idle x.cfg) :
    RSim (fun s' a' => RBase x s' a' ∧ (∃ sp, s' = s.setSpl sp ∧ sp.resplitting = false))
      (fun s' a' => x.cfg.mode = .throw ∧ RBase x s' a' ∧ (∃ sp, s' = s.setSpl sp ∧ sp.resplitting = false))
      (fun _ _ => True) (Reader.onNext (Conv.split x.cfg x.delim) s) (MRd.splitText x.cfg x.delim (cutNul a.look) a) := by
  obtain ⟨T, hT⟩ := hl.term
  have hs : Holds s.next.conv.spl (cutNul a.look) T := ⟨hT, cutNul_nul _, hi.1⟩
  obtain ⟨sp, hk, hsp⟩ := Conv.split_spec hx.wf hx.delim hx.delim0 (s := s.next.conv) hs
  generalize cutNul a.look = text at *
  have hres : sp.resplitting = false := hk.idle.trans hi.1
  unfold MRd.splitText
  by_cases ht : text = []
  · rw [if_pos ht]
    simp only [splitRes, ht, if_true] at hsp
    obtain ⟨h1, h2, h3, h4, _⟩ := hsp
    rw [onNext_ok h1]
    refine .ok trivial ⟨?_, sp, rfl, hres⟩
    refine RBase.setSpl h hk.len (h3.trans h.next.serr) ?_
    intro cs hcs; cases hcs
    refine ⟨h2, h4 ?_⟩
    intro _
    exact decodeRow_nil_closed _ _
  · rw [if_neg ht]
    simp only [splitRes, ht, if_false] at hsp
    cases hx : endError x.cfg text.length (decodeRow x.cfg x.delim text).2 with
    | some m =>
      rw [hx] at hsp
      simp only at hsp ⊢
      by_cases hm : x.cfg.mode = .throw
      · rw [if_pos hm] at hsp ⊢
        obtain ⟨_, h1, h2, _⟩ := hsp
        rw [onNext_exc h1]
        refine .exc ⟨hm, ?_, sp, rfl, hres⟩
        exact RBase.setSpl h hk.len (h2.trans h.next.serr) (by intro cs h; cases h)
      · rw [if_neg hm] at hsp ⊢
        obtain ⟨_, h1, h2, h3, h4⟩ := hsp
        rw [onNext_ok h1]
        refine .ok trivial ⟨?_, sp, rfl, hres⟩
        exact RBase.setSpl h hk.len (by rw [h3, h.next.serr]) (by intro cs h; cases h)
    | none =>
      rw [hx] at hsp
      simp only at hsp ⊢
      obtain ⟨h1, h2, h3, h4, _⟩ := hsp
      rw [onNext_ok h1]
      refine .ok trivial ⟨?_, sp, rfl, hres⟩
      refine RBase.setSpl h hk.len (by rw [h3, h.next.serr]) ?_
      intro cs hcs
      split at hcs
      · cases hcs
      · rename_i ho
        cases hcs
        exact ⟨h2, h4 fun _ => by simpa using ho⟩

/-- without multiline -/
theorem parseSim_one {x : Ctx} (hx : x.Ok) (hm : x.cfg.multiline = false) : ParseSim x := by
  intro s a h hl hc hi _
  unfold Reader.parse MRd.parse Reader.escapeLoopIf MRd.escapeLoopIf
  simp only [hm, Bool.false_eq_true, false_and, if_false, M.pure_bind', M.get_bind]
  have := splitText_sim hx h hl hi
  refine RSim.bind (this.mono (Q' := _) (fun s' a' h => h) ?_) (Q := _) fun _ s' _ a' _ h => ?_
  · rintro s' a' ⟨h0, h1, sp, rfl, h2⟩
    exact ⟨h0, h1, .inr ⟨hc, h2, fun h => by rw [hm] at h; cases h⟩⟩
  · obtain ⟨h1, sp, rfl, h2⟩ := h
    exact .ok trivial ⟨h1, .inr ⟨hc, h2, fun h => by rw [hm] at h; cases h⟩⟩

theorem Ctx.Ok.good {x : Ctx} (hx : x.Ok) (hm : x.cfg.multiline = false) : x.Good :=
  ⟨hx.fine, parseSim_one hx hm⟩

end Ssp
