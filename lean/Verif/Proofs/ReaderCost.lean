import Verif.Model.ReaderCost
import Verif.Proofs.Cost
import Verif.Proofs.LineCost
import Verif.Proofs.ParseOne
import Verif.Props.Cost
/-! # The counted reader -/
namespace Ssp

theorem erase_getLine (env : Env) (src : Src) : (Io.getLineK env src).erase = Io.getLine env src := by
  cases src with
  | file u d =>
    cases u with
    | true => rfl
    | false =>
      show K.erase (Io.getlinePortableK env d >>= _) = _
      simp only [erase_bind, erase_free, erase_pure, Io.erase_getlinePortable]
      rfl
  | buf p n => exact Io.erase_getLineBuffer env p n

theorem erase_onSpl {α : Type} (k : K Spl α) : (Conv.onSplK k).erase = Conv.onSpl k.erase := by
  funext s
  unfold K.erase Conv.onSplK Conv.onSpl
  cases h : k s.spl with
  | mk r n => cases r <;> simp only [h]

theorem erase_convSplit (c : Cfg) (delim : Bytes) : (Conv.splitK c delim).erase = Conv.split c delim := by
  unfold Conv.splitK Conv.split
  simp only [erase_bind, erase_free, erase_ite, erase_pure, erase_onSpl, Spl.erase_rd, Spl.erase_split]

namespace Reader

theorem erase_onNext {α : Type} (k : K Conv α) : (onNextK k).erase = onNext k.erase := by
  funext s
  unfold K.erase onNextK onNext
  cases h : k s.next.conv with
  | mk r n => cases r <;> simp only [h]

theorem erase_getLineNext (x : Ctx) : (getLineNextK x).erase = getLineNext x := by
  funext s
  unfold K.erase getLineNextK getLineNext
  rw [← erase_getLine]
  unfold K.erase
  cases h : Io.getLineK x.env x.src s.ioNext with
  | mk r n => cases r <;> simp only

theorem erase_getLineHelper (x : Ctx) : (getLineHelperK x).erase = getLineHelper x := by
  funext s
  unfold K.erase getLineHelperK getLineHelper
  rw [← erase_getLine]
  unfold K.erase
  cases h : Io.getLineK x.env x.src s.ioHelper with
  | mk r n => cases r <;> simp only

theorem erase_readNextLoop (x : Ctx) : ∀ f, (readNextLoopK x f).erase = readNextLoop x f
  | 0 => rfl
  | f + 1 => by
    unfold readNextLoopK readNextLoop
    simp only [erase_bind, erase_free, erase_ite, erase_of, erase_pure, erase_getLineNext]
    congr 1
    funext _
    congr 1
    funext s
    congr 1
    funext _
    congr 1
    funext _
    congr 1
    funext o
    cases o with
    | none => rfl
    | some k =>
      dsimp only
      simp only [erase_bind, erase_free, erase_ite, erase_of, erase_pure, erase_readNextLoop x f]

theorem erase_readNext (x : Ctx) : (readNextK x).erase = readNext x := by
  unfold readNextK readNext
  simp only [erase_bind, erase_free, erase_readNextLoop]

theorem erase_countEscapes (c : Cfg) : ∀ p, (countEscapesK c p).erase = countEscapes c p
  | 0 => rfl
  | p + 1 => by
    unfold countEscapesK countEscapes
    simp only [erase_bind, erase_of, erase_ite, erase_pure, erase_countEscapes c p]

theorem erase_appendNextLine (x : Ctx) : (appendNextLineK x).erase = appendNextLine x := by
  unfold appendNextLineK appendNextLine
  simp only [erase_bind, erase_free, erase_of, erase_getLineHelper]
  congr 1
  funext _
  congr 1
  funext _
  congr 1
  funext o
  cases o with
  | none => rfl
  | some k =>
    dsimp only
    simp only [erase_bind, erase_free, erase_of, erase_pure]

theorem erase_escapeLoop (x : Ctx) : ∀ f l, (escapeLoopK x f l).erase = escapeLoop x f l
  | 0, _ => rfl
  | f + 1, l => by
    unfold escapeLoopK escapeLoop escapedEolK escapedEol
    simp only [erase_bind, erase_free, erase_ite, erase_pure, erase_countEscapes, erase_appendNextLine, erase_escapeLoop x f]

theorem erase_escapeLoopIf (x : Ctx) (l : Nat) : (escapeLoopIfK x l).erase = escapeLoopIf x l := by
  unfold escapeLoopIfK escapeLoopIf
  simp only [erase_ite, erase_pure, erase_escapeLoop]

theorem erase_quoteLoop (x : Ctx) : ∀ f l, (quoteLoopK x f l).erase = quoteLoop x f l
  | 0, _ => rfl
  | f + 1, l => by
    unfold quoteLoopK quoteLoop
    simp only [erase_bind, erase_free, erase_ite, erase_pure, erase_appendNextLine, erase_escapeLoopIf]
    congr 1
    funext s
    congr 1
    congr 1
    congr 1
    funext _
    congr 1
    funext b
    congr 1
    congr 1
    funext b
    congr 1
    congr 1
    funext o
    cases o with
    | none => rfl
    | some l' =>
      dsimp only
      simp only [erase_bind, erase_free, erase_onNext, erase_onSpl, Spl.erase_resplit, erase_quoteLoop x f]

theorem erase_parse (x : Ctx) : (parseK x).erase = parse x := by
  unfold parseK parse
  simp only [erase_bind, erase_escapeLoopIf]
  congr 1
  funext o
  cases o with
  | none => rfl
  | some l =>
    dsimp only
    simp only [erase_bind, erase_ite, erase_pure, erase_onNext, erase_convSplit, erase_quoteLoop]

end Reader

theorem K.bind_of_ok {σ α β : Type} {k : K σ α} {f : α → K σ β} {s s' : σ} {a : α} {n : Nat} (h : k s = (.ok a s', n)) :
    (k >>= f) s = ((f a s').1, n + (f a s').2) := by
  show K.bind k f s = _
  unfold K.bind
  rw [h]

theorem K.modify_bind {σ α : Type} (g : σ → σ) (f : Unit → K σ α) (s : σ) : (K.free (M.modify g) >>= f) s = f () (g s) := by
  show K.bind (K.free (M.modify g)) f s = _
  unfold K.bind
  simp only [K.free, K.of, M.modify_apply, Nat.zero_add]

theorem K.pure_bind {σ α β : Type} (a : α) (f : α → K σ β) (s : σ) : ((pure a : K σ α) >>= f) s = f a s := by
  show K.bind (K.pure a) f s = _
  unfold K.bind K.pure
  simp only [Nat.zero_add]

/-- a slot between two calls: the size variable is the size of the block, which is null or not smaller than the first one, and
the splitter can be called -/
structure Slot.Good (t : Slot) : Prop where
  sized : t.size = t.conv.spl.mem.length
  big : t.size = 0 ∨ 128 ≤ t.size
  idle : t.conv.spl.resplitting = false

namespace Reader
open Io (upToLF)

theorem removeEolNext_len {l R : Bytes} {s : Reader} (hl : l ≠ []) (hm : s.next.conv.spl.mem = l ++ NUL :: R) :
    ∃ T, removeEolNext l.length s = .ok (chop l).length
      ({ s with crlf := eolOf l == [CR, LF] }.setMem (chop l ++ NUL :: T)) ∧ (chop l ++ NUL :: T).length = (l ++ NUL :: R).length := by
  refine ⟨_, removeEolNext_spec hl hm, ?_⟩
  rw [← removed_eq]
  split <;> simp

/-- the number of lines of the text that are rows: all, or those that are not empty -/
def rowCount (x : Ctx) (t : Bytes) : Nat := ((rawLines t).filter fun l => ! (x.cfg.ignoreEmpty && chop l == [])).length

/-- reading the next line, and the empty ones before it: seven steps for every byte passed, one more, and the growth of the
buffer -/
theorem readNextLoopK_cost {x : Ctx} {d : Bytes} (hx : x.src = .buf (some d) d.length) : ∀ (f : Nat) (s : Reader), d.length - s.curr < f →
    s.next.Good → ∃ b s' n, readNextLoopK x f s = (.ok b s', n) ∧ s'.cur = s.cur ∧ s'.next.Good ∧ s.curr ≤ s'.curr ∧
      (s.curr ≤ d.length → s'.curr ≤ d.length) ∧ s.next.size ≤ s'.next.size ∧
      n + s.next.size ≤ s'.next.size + 7 * (s'.curr - s.curr) + 1 ∧ s'.next.size ≤ max s.next.size (max 128 (2 * (s'.curr - s.curr))) ∧
      (b = true → s.curr < s'.curr ∧ ∃ line T, Holds s'.next.conv.spl line T ∧ line.length ≤ s'.curr - s.curr) ∧
      rowCount x (d.drop s.curr) = (if b then rowCount x (d.drop s'.curr) + 1 else 0) := by
  intro f
  induction f with
  | zero => intro s h; omega
  | succ f ih =>
    intro s hf hg
    -- the bookkeeping before `get_line`
    have hpre : ∃ s1 n1, n1 ≤ 1 ∧ s1.cur = s.cur ∧ s1.next.Good ∧ s1.next.size = s.next.size ∧ s1.curr = s.curr ∧
        readNextLoopK x (f + 1) s = (fun p : Res Reader Bool × Nat => (p.1, n1 + p.2)) ((getLineNextK x >>= fun r => match r with
          | none => pure false
          | some ssize => K.of (removeEolNext ssize) (fun _ => 3) >>= fun size =>
            if x.cfg.ignoreEmpty ∧ size = 0 then readNextLoopK x f
            else K.free (M.modify fun s => { s with nextLineSize := size }) >>= fun _ => pure true : K Reader Bool) s1) := by
      by_cases hz : s.next.size > 0
      · have hw : wrNext 0 NUL { s with lineNumber := s.lineNumber + 1 } = .ok () { s with
            lineNumber := s.lineNumber + 1
            next := { s.next with conv := { s.next.conv with spl := { s.next.conv.spl with mem := s.next.conv.spl.mem.set 0 NUL } } } } := by
          unfold wrNext
          rw [if_pos (by rw [← hg.sized]; exact hz)]
        refine ⟨{ s with
          lineNumber := s.lineNumber + 1
          next := { s.next with conv := { s.next.conv with spl := { s.next.conv.spl with mem := s.next.conv.spl.mem.set 0 NUL } } }
          charsRead := s.curr }, 1, Nat.le_refl _, rfl, ⟨by simpa using hg.sized, hg.big, hg.idle⟩, rfl, rfl, ?_⟩
        conv => lhs; unfold readNextLoopK
        rw [K.modify_bind]
        rw [K.get_bind]
        rw [if_pos (show ({ s with lineNumber := s.lineNumber + 1 } : Reader).next.size > 0 from hz)]
        rw [K.bind_of_ok (a := ()) (n := 1) (by unfold K.of; rw [hw])]
        rw [K.modify_bind]
        rfl
      · refine ⟨{ s with lineNumber := s.lineNumber + 1, charsRead := s.curr }, 0, Nat.zero_le _, rfl, hg, rfl, rfl, ?_⟩
        conv => lhs; unfold readNextLoopK
        rw [K.modify_bind]
        rw [K.get_bind]
        rw [if_neg (show ¬ ({ s with lineNumber := s.lineNumber + 1 } : Reader).next.size > 0 from hz)]
        rw [K.pure_bind]
        rw [K.modify_bind]
        simp only [Nat.zero_add]
        rfl
    obtain ⟨s1, n1, p1, p2, p3, p4, p5, p6⟩ := hpre
    rw [p6]
    clear p6
    have hio : s1.ioNext.Sized := p3.sized
    have hspec := getLineBuffer_spec (env := x.env) (d := d) (s := s1.ioNext) hio
    have hk : Io.getLineK x.env x.src = Io.getLineBufferK x.env (some d) d.length := by rw [hx]; rfl
    by_cases he : d.drop s1.ioNext.curr = []
    · -- the end
      have hz : getLineNextK x s1 = (.ok none s1, 0) := by
        unfold getLineNextK
        rw [hk]
        unfold Io.getLineBufferK
        rw [K.get_bind, if_pos (List.drop_eq_nil_iff.mp he)]
        rfl
      rw [K.bind_of_ok hz]
      refine ⟨false, s1, n1, ?_, p2, p3, by omega, fun h => by omega, by omega, by omega, by omega, by simp, ?_⟩
      rotate_left
      · have he' : d.drop s.curr = [] := by rw [← p5]; exact he
        rw [he']; rfl
      show (Res.ok false s1, n1 + (0 + 0)) = _
      simp
    · rw [if_neg he] at hspec
      obtain ⟨J, io, h1, h2, h3, h4, h5⟩ := hspec
      rw [← Io.erase_getLineBuffer] at h1
      have h1' : Io.getLineBufferK x.env (some d) d.length s1.ioNext = (.ok (some (upToLF (d.drop s1.ioNext.curr)).length) io,
          (Io.getLineBufferK x.env (some d) d.length s1.ioNext).2) := by rw [← h1]; rfl
      obtain ⟨_, a2, _, a4, a5, a6, _⟩ := Io.getLineBufferK_cost hio h1'
      generalize (Io.getLineBufferK x.env (some d) d.length s1.ioNext).2 = n2 at h1' a2
      have hz : getLineNextK x s1 = (.ok (some (upToLF (d.drop s1.ioNext.curr)).length) (s1.setNext io), n2) := by
        unfold getLineNextK
        rw [hk, h1']
      rw [K.bind_of_ok hz]
      have hne := upToLF_ne he
      have hpos := List.length_pos_iff.mpr hne
      have hcur : s1.ioNext.curr = s.curr := p5
      have hlend : (upToLF (d.drop s1.ioNext.curr)).length ≤ d.length - s.curr := by
        have := congrArg List.length (upToLF_split (d.drop s1.ioNext.curr))
        rw [List.length_append, List.length_drop, hcur] at this
        rw [hcur]
        omega
      generalize hl : upToLF (d.drop s1.ioNext.curr) = l at *
      obtain ⟨T, e1, e2⟩ := removeEolNext_len (l := l) (s := s1.setNext io) hne (by exact h2)
      dsimp only
      rw [K.bind_of_ok (a := (chop l).length) (n := 3) (by unfold K.of; rw [e1])]
      have hiosize : io.n = (l ++ NUL :: (s1.ioNext.mem.drop (l.length + 1) ++ J)).length := by
        have := h3; unfold Io.Sized at this; rw [this, h2]; rfl
      have hg2 : (({ s1.setNext io with crlf := eolOf l == [CR, LF] } : Reader).setMem (chop l ++ NUL :: T)).next.Good := by
        refine ⟨?_, .inr a5, p3.idle⟩
        show io.n = (chop l ++ NUL :: T).length
        rw [e2]; exact hiosize
      have hb := a2 p3.big
      have hn0 : s1.ioNext.n = s.next.size := p4
      rw [hn0] at hb a4 a6
      have hchop : (chop l).length ≤ l.length := by
        have := congrArg List.length (chop_eol l)
        rw [List.length_append] at this; omega
      have hcur2 : (({ s1.setNext io with crlf := eolOf l == [CR, LF] } : Reader).setMem (chop l ++ NUL :: T)).curr = s.curr + l.length := by
        show io.curr = _
        rw [h4, hcur]
      have hrow : rowCount x (d.drop s.curr) = rowCount x (d.drop (s.curr + l.length)) + if x.cfg.ignoreEmpty = true ∧ (chop l).length = 0 then 0 else 1 := by
        have he' : d.drop s.curr ≠ [] := by rw [← p5]; exact he
        have hl' : upToLF (d.drop s.curr) = l := by rw [← hcur]; exact hl
        unfold rowCount
        rw [rawLines_cons he', hl', List.drop_drop, List.filter_cons]
        by_cases hi : x.cfg.ignoreEmpty = true ∧ (chop l).length = 0
        · rw [if_pos hi, if_neg (by simp [hi.1, List.length_eq_zero_iff.mp hi.2])]; rfl
        · rw [if_neg hi, if_pos (by
            cases hx : x.cfg.ignoreEmpty
            · simp
            · simp only [hx, true_and] at hi
              simpa using fun h => hi (by rw [h]; rfl))]
          rfl
      by_cases hie : x.cfg.ignoreEmpty = true ∧ (chop l).length = 0
      · rw [if_pos hie]
        obtain ⟨b, s', n, i1, i2, i3, i4, i5, i6, i7, i8, i9, i10⟩ := ih _ (by rw [hcur2]; omega) hg2
        rw [hcur2] at i4 i5 i7 i8 i9 i10
        have hsz : (({ s1.setNext io with crlf := eolOf l == [CR, LF] } : Reader).setMem (chop l ++ NUL :: T)).next.size = io.n := rfl
        rw [hsz] at i6 i7 i8
        rw [i1]
        refine ⟨b, s', _, rfl, i2.trans p2, i3, by omega, fun h => i5 (by omega), by omega, by dsimp only; omega, by omega, fun h => ?_, ?_⟩
        rotate_left
        · rw [hrow, if_pos hie]; exact i10
        obtain ⟨j1, line, T', j2, j3⟩ := i9 h
        exact ⟨by omega, line, T', j2, by omega⟩
      · rw [if_neg hie]
        rw [K.modify_bind]
        refine ⟨true, { ({ s1.setNext io with crlf := eolOf l == [CR, LF] } : Reader).setMem (chop l ++ NUL :: T) with
          nextLineSize := (chop l).length }, n1 + (n2 + 3), ?_, p2, hg2, ?_, ?_, ?_, ?_, ?_, fun _ => ⟨?_, ?_⟩, ?_⟩
        rotate_right
        · rw [hrow, if_neg hie, if_pos rfl]; dsimp only; rw [hcur2]
        · rfl
        · dsimp only; rw [hcur2]; omega
        · dsimp only; rw [hcur2]; omega
        · show s.next.size ≤ io.n; omega
        · dsimp only
          rw [hcur2]
          show _ ≤ io.n + _ + 1
          omega
        · dsimp only
          rw [hcur2]
          show io.n ≤ _
          omega
        · dsimp only; rw [hcur2]; omega
        · obtain ⟨T', hT'⟩ := cutNul_append_nul (chop l) T
          refine ⟨cutNul (chop l), T', ⟨hT', cutNul_nul _, p3.idle⟩, ?_⟩
          dsimp only
          rw [hcur2]
          have : (cutNul (chop l)).length ≤ (chop l).length := (List.takeWhile_sublist _).length_le
          omega

/-- splitting the line read ahead -/
theorem parseK_cost {x : Ctx} (hc : x.cfg.WF) (hd : NUL ∉ x.delim) (hml : x.cfg.multiline = false) {s : Reader} {line T : Bytes}
    (hg : s.next.Good) (hs : Holds s.next.conv.spl line T) :
    ∃ s' n, (parseK x s = (.ok () s', n) ∨ ∃ e, parseK x s = (.exc e s', n)) ∧ s'.cur = s.cur ∧ s'.next.Good ∧ s'.next.size = s.next.size ∧
      s'.curr = s.curr ∧ n ≤ (x.delim.length + 13) * (line.length + 1) + 1 := by
  unfold parseK
  have h0 : escapeLoopIfK x 0 = pure (some 0) := by unfold escapeLoopIfK; rw [if_neg (by simp [hml])]
  rw [h0, K.pure_bind]
  dsimp only
  rw [if_neg (by simp [hml])]
  have hnul : s.next.conv.spl.mem.length ≠ 0 := by rw [hs.mem]; simp
  -- the converter
  have key : ∃ cv n, (Conv.splitK x.cfg x.delim s.next.conv = (.ok () cv, n) ∨ ∃ e, Conv.splitK x.cfg x.delim s.next.conv = (.exc e cv, n)) ∧
      cv.spl.mem.length = s.next.conv.spl.mem.length ∧ cv.spl.resplitting = false ∧ n ≤ (x.delim.length + 13) * (line.length + 1) + 1 := by
    unfold Conv.splitK
    rw [K.modify_bind]
    have hs' : Holds ({ s.next.conv.spl with data := [] } : Spl) line T := ⟨hs.mem, hs.nul, hs.idle⟩
    cases hb : s.next.conv.spl.mem[0]? with
    | none => rw [List.getElem?_eq_none_iff] at hb; omega
    | some b =>
      rw [K.bind_of_ok (a := b) (s' := { s.next.conv with spl := { s.next.conv.spl with data := [] } }) (n := 1)
        (by
          unfold Conv.onSplK Spl.rdK K.of Spl.rd
          dsimp only
          rw [hb])]
      by_cases hz : b = NUL
      · rw [if_pos hz]
        exact ⟨{ s.next.conv with spl := { s.next.conv.spl with data := [] } }, 1, .inl rfl, rfl, hs.idle, by omega⟩
      · rw [if_neg hz]
        obtain ⟨sp, e1, e2, _, e4⟩ := C01_split_total_and_safe hc hd hs'
        have hcost := C69_split_is_linear hc hd hs'
        rw [← Spl.erase_split] at e1
        unfold K.erase at e1
        cases hk : Spl.splitK x.cfg x.delim { s.next.conv.spl with data := [] } with
        | mk r n =>
          rw [hk] at e1 hcost
          dsimp only at e1 hcost
          refine ⟨{ s.next.conv with spl := sp }, 1 + n, ?_, e2, e4, by omega⟩
          rcases e1 with e1 | ⟨m, e1⟩
          · left
            subst e1
            unfold Conv.onSplK
            simp only [hk]
          · right
            refine ⟨m, ?_⟩
            subst e1
            unfold Conv.onSplK
            simp only [hk]
  obtain ⟨cv, n, k1, k2, k3, k4⟩ := key
  refine ⟨{ s with next := { s.next with conv := cv } }, n, ?_, rfl, ⟨hg.sized.trans k2.symm, hg.big, k3⟩, rfl, rfl, k4⟩
  rcases k1 with k1 | ⟨e, k1⟩
  · left
    have : onNextK (Conv.splitK x.cfg x.delim) s = (.ok () { s with next := { s.next with conv := cv } }, n) := by
      unfold onNextK; rw [k1]
    rw [K.bind_of_ok this]
    rfl
  · right
    refine ⟨e, ?_⟩
    have : onNextK (Conv.splitK x.cfg x.delim) s = (.exc e { s with next := { s.next with conv := cv } }, n) := by
      unfold onNextK; rw [k1]
    show K.bind _ _ s = _
    unfold K.bind
    rw [this]

end Reader
end Ssp
