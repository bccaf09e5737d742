import Verif.Proofs.DecodeChars
import Verif.Proofs.MachineHeader
import Verif.Proofs.MachineKeep
/-!
# The row machine with other match characters
-/
namespace Ssp
open Spec

theorem decodeRow_noQuote {c : Cfg} {d : Bytes} (hd : d ≠ []) (hq : c.quote = none) (r a : Bytes) : (decodeRow c d r).2 ≠ .openQuote a := by
  have hs : ∀ r, (start c r).1 = .normal := by
    intro r
    cases r with
    | nil => rfl
    | cons x xs => simp [start, hq]
  have key : ∀ n r, r.length < n → ∀ acc, (decode c d .normal acc r).2 ≠ .openQuote a := by
    intro n
    induction n with
    | zero => intro r hr; omega
    | succ n ih =>
      intro r hr acc
      cases hf : field c d .normal acc r with
      | next f rest =>
        have hl := field_next_length c d hd .normal acc r f rest hf
        rw [decode_next hd hf]
        show (decodeFields c d rest).2 ≠ _
        unfold decodeFields
        rw [hs]
        exact ih _ (by have := start_length_le c rest; omega) _
      | last f e =>
        rw [decode_last hf]
        rcases field_last_end c d _ acc r f e hf with rfl | rfl <;> (intro h; cases h)
      | stop e => exact absurd (field_stop_quoted _ _ _ _ _ _ hf) (by decide)
  unfold decodeRow decodeFields
  rw [hs]
  exact key _ _ (Nat.lt_succ_self _) _

/-- everything the reader has read or will read consists of characters of which the setups make the same -/
structure Plain (x : Ctx) (c' : Cfg) (a : MRd) : Prop where
  look : AgreeIn x.cfg c' a.look
  todo : ∀ l ∈ a.todo, AgreeIn x.cfg c' l
  eol : x.cfg.multiline = true → AgreeIn x.cfg c' [CR, LF]
  nul : x.cfg.AgreeAt c' NUL

theorem WF.agreeNul {c c' : Cfg} (h : c.WF) (h' : c'.WF) : c.AgreeAt c' NUL :=
  ⟨⟨fun e => absurd e h.nul_q, fun e => absurd e h'.nul_q⟩, ⟨fun e => absurd e h.nul_e, fun e => absurd e h'.nul_e⟩,
    ⟨fun e => absurd e h.nul_l, fun e => absurd e h'.nul_l⟩, ⟨fun e => absurd e h.nul_r, fun e => absurd e h'.nul_r⟩⟩

section
variable {x : Ctx} {q : Option Byte} {e l r : List Byte}

local notation "y" => Ctx.withChars x q e l r
local notation "PL" => Plain x (Ctx.cfg (Ctx.withChars x q e l r))
local notation "AG" => AgreeIn (Ctx.cfg x) (Ctx.cfg (Ctx.withChars x q e l r))

theorem oddTail_chars {t : Bytes} (h : AG t) : MRd.oddTail (y).cfg t = MRd.oddTail x.cfg t := by
  unfold MRd.oddTail MRd.trailing
  rw [takeWhile_agree (p := fun b => decide (b ∈ (y).cfg.escape)) fun b hb => h.escapes b (List.mem_reverse.mp hb)]

theorem zap_agree {t : Bytes} (h : AG t) (h0 : x.cfg.AgreeAt (y).cfg NUL) : AG (MRd.zap t) := by
  intro b hb
  rcases List.mem_or_eq_of_mem_set hb with hb | rfl
  · exact h b hb
  · exact h0

theorem readGo_plain {ie : Bool} : ∀ {ls : List Bytes} {a : MRd}, PL a → (∀ l' ∈ ls, AG l') → PL (MRd.readGo ie ls a).2 := by
  intro ls
  induction ls with
  | nil =>
    intro a h _
    exact ⟨zap_agree h.look h.nul, (fun _ hl => by cases hl), h.eol, h.nul⟩
  | cons l' ls ih =>
    intro a h hls
    unfold MRd.readGo
    have h1 := hls l' (by simp)
    split
    · refine ih ⟨?_, fun _ hl => hls _ (by simp [hl]), h.eol, h.nul⟩ fun _ hl => hls _ (by simp [hl])
      unfold MRd.overlay
      refine AgreeIn.take (AgreeIn.append (AgreeIn.append (zap_agree h1 h.nul) ?_) (h.look.drop _)) _
      intro b hb
      rw [List.mem_singleton] at hb
      exact hb ▸ h.nul
    · exact ⟨h1.mono (fun _ hb => chop_sub hb), fun _ hl => hls _ (by simp [hl]), h.eol, h.nul⟩

theorem readNext_plain {a : MRd} (h : PL a) : Part PL (MRd.readNext x a) :=
  readGo_plain (a := { a with next := _ }) ⟨h.look, h.todo, h.eol, h.nul⟩ h.todo

theorem same_plain {a a' : MRd} (h : PL a) (h1 : a'.look = a.look) (h2 : a'.todo = a.todo) : PL a' :=
  ⟨h1 ▸ h.look, h2 ▸ h.todo, h.eol, h.nul⟩

theorem splitText_plain {c : Cfg} {d t : Bytes} {a : MRd} (h : PL a) : Part PL (MRd.splitText c d t a) := by
  unfold MRd.splitText
  split
  · exact same_plain h rfl rfl
  · split
    · split <;> exact same_plain h rfl rfl
    · exact same_plain h rfl rfl

theorem failLimit_plain {c : Cfg} {a : MRd} (h : PL a) : Part PL (MRd.failLimit c a) := by
  unfold MRd.failLimit; split <;> exact same_plain h rfl rfl

theorem failOpen_plain {c : Cfg} {m : Bytes} {a : MRd} (h : PL a) : Part PL (MRd.failOpen c m a) := by
  unfold MRd.failOpen; split <;> exact same_plain h rfl rfl

theorem append_plain (hm : x.cfg.multiline = true) {a : MRd} (h : PL a) : Part PL (MRd.append a) := by
  unfold MRd.append
  split
  · exact same_plain h rfl rfl
  · rename_i l' ls hl
    have h1 := h.todo l' (by rw [hl]; simp)
    refine ⟨AgreeIn.append (AgreeIn.append h.look ?_) (h1.mono (fun _ hb => chop_sub hb)), fun _ hl' => h.todo _ (by rw [hl]; simp [hl']), h.eol, h.nul⟩
    refine (h.eol hm).mono fun b hb => ?_
    split at hb
    · exact hb
    · simp at hb ⊢; exact .inr hb

theorem resplitText_plain {c : Cfg} {d acc more : Bytes} {fs : List Bytes} {k o : Nat} {a : MRd} (h : PL a) :
    Part PL (MRd.resplitText c d fs acc k o more a) := by
  unfold MRd.resplitText
  simp only
  split
  · split <;> exact same_plain h rfl rfl
  · exact same_plain h rfl rfl

/-- a step that comes before others -/
theorem bind_both {σ α β : Type} {P : σ → Prop} {m m' : M σ α} {f f' : α → M σ β} {s : σ} (h : m' s = m s ∧ Part P (m s))
    (hf : ∀ a t, P t → f' a t = f a t ∧ Part P (f a t)) : (m' >>= f') s = (m >>= f) s ∧ Part P ((m >>= f) s) := by
  rw [M.bind_apply, M.bind_apply, h.1]
  have h2 := h.2
  cases hm : m s with
  | ok a t' => rw [hm] at h2; exact hf a t' h2
  | exc e t' => rw [hm] at h2; exact ⟨rfl, h2⟩
  | ub => exact ⟨rfl, trivial⟩
  | nofuel => exact ⟨rfl, trivial⟩

theorem same_both {σ α : Type} {P : σ → Prop} {m : M σ α} {s : σ} (h : Part P (m s)) : m s = m s ∧ Part P (m s) := ⟨rfl, h⟩

theorem get_both {σ : Type} {P : σ → Prop} {s : σ} (h : P s) : (M.get : M σ σ) s = (M.get : M σ σ) s ∧ Part P ((M.get : M σ σ) s) := ⟨rfl, h⟩

theorem ite_both {σ α : Type} {P : σ → Prop} {c : Prop} [Decidable c] {m m' n n' : M σ α} {s : σ}
    (h1 : c → m' s = m s ∧ Part P (m s)) (h2 : ¬ c → n' s = n s ∧ Part P (n s)) :
    (if c then m' else n') s = (if c then m else n) s ∧ Part P ((if c then m else n) s) := by
  split
  · exact h1 ‹_›
  · exact h2 ‹_›

theorem escapeLoop_both (hm : x.cfg.multiline = true) {pre : Bytes} (hp : AG pre) {before : Nat} : ∀ (f limit : Nat) {a : MRd}, PL a →
    MRd.escapeLoop (y) pre before f limit a = MRd.escapeLoop x pre before f limit a ∧ Part PL (MRd.escapeLoop x pre before f limit a) := by
  intro f
  induction f with
  | zero => intro _ _ _; exact ⟨rfl, trivial⟩
  | succ f ih =>
    intro limit a h
    unfold MRd.escapeLoop
    rw [M.get_bind, M.get_bind]
    rw [oddTail_chars (hp.append (h.look.drop _))]
    refine ite_both (fun _ => ite_both (fun _ => ?_) fun _ => ?_) fun _ => same_both h
    · exact bind_both (same_both (failLimit_plain h)) fun _ _ h => same_both h
    · refine bind_both (same_both (append_plain hm h)) fun b _ h => ite_both (fun _ => ih _ h) fun _ => ?_
      exact bind_both (same_both (failOpen_plain h)) fun _ _ h => same_both h

theorem escapeLoopIf_both {pre : Bytes} (hp : AG pre) {before limit : Nat} {a : MRd} (h : PL a) :
    MRd.escapeLoopIf (y) pre before limit a = MRd.escapeLoopIf x pre before limit a ∧ Part PL (MRd.escapeLoopIf x pre before limit a) := by
  by_cases hm : x.cfg.multiline = true
  · have none : ∀ z : Ctx, MRd.oddTail z.cfg (pre ++ a.look.drop before) = false → MRd.escapeLoopIf z pre before limit a = .ok (some limit) a := by
      intro z hz
      unfold MRd.escapeLoopIf
      split
      · obtain ⟨k, hk⟩ : ∃ k, Reader.bound z = k + 1 := ⟨_, rfl⟩
        rw [hk]
        unfold MRd.escapeLoop
        rw [M.get_bind, hz]
        rfl
      · rfl
    have empty : ∀ c : Cfg, c.escape = [] → ∀ t, MRd.oddTail c t = false := by
      intro c hc t
      unfold MRd.oddTail MRd.trailing
      have : t.reverse.takeWhile (fun b => decide (b ∈ c.escape)) = [] := by
        cases t.reverse <;> simp [hc]
      rw [this]; rfl
    have hodd := oddTail_chars (hp.append (h.look.drop before))
    by_cases h1 : x.cfg.escape = []
    · have h0 := empty _ h1 (pre ++ a.look.drop before)
      rw [none x h0, none (y) (hodd.trans h0)]
      exact ⟨rfl, h⟩
    by_cases h2 : (y).cfg.escape = []
    · have h0 := empty _ h2 (pre ++ a.look.drop before)
      rw [none (y) h0, none x (hodd.symm.trans h0)]
      exact ⟨rfl, h⟩
    unfold MRd.escapeLoopIf
    rw [if_pos (show (y).cfg.multiline = true ∧ _ from ⟨hm, h2⟩), if_pos ⟨hm, h1⟩]
    exact escapeLoop_both hm hp _ _ h
  · unfold MRd.escapeLoopIf
    rw [if_neg (show ¬ ((y).cfg.multiline = true ∧ (y).cfg.escape ≠ []) from fun h => hm h.1),
      if_neg (show ¬ (x.cfg.multiline = true ∧ x.cfg.escape ≠ []) from fun h => hm h.1)]
    exact ⟨rfl, h⟩

theorem cutNul_sub {t : Bytes} : ∀ b ∈ cutNul t, b ∈ t := fun _ hb => (List.takeWhile_sublist _).subset hb

theorem endError_chars (n : Nat) (E : End) : endError (y).cfg n E = endError x.cfg n E := rfl

theorem resplitText_chars (hd : x.delim ≠ []) {acc more : Bytes} (hmore : AG more) (fs : List Bytes) (k o : Nat) :
    MRd.resplitText (y).cfg (y).delim fs acc k o more = MRd.resplitText x.cfg x.delim fs acc k o more := by
  unfold MRd.resplitText
  have : decode (y).cfg (y).delim .quoted acc more = decode x.cfg x.delim .quoted acc more := (decode_alike hd _ _ _ hmore).1
  rw [this]
  rfl

theorem quoteLoop_both (hd : x.delim ≠ []) (hm : x.cfg.multiline = true) : ∀ (f limit : Nat) (fs : List Bytes) (acc : Bytes) (k o : Nat) (tail : Bytes)
    {a : MRd}, AG acc → AG tail → PL a →
    MRd.quoteLoop (y) f limit fs acc k o tail a = MRd.quoteLoop x f limit fs acc k o tail a ∧
      Part PL (MRd.quoteLoop x f limit fs acc k o tail a) := by
  intro f
  induction f with
  | zero => intros; exact ⟨rfl, trivial⟩
  | succ f ih =>
    intro limit fs acc k o tail a hacc htail h
    unfold MRd.quoteLoop
    rw [M.get_bind, M.get_bind]
    refine ite_both (fun _ => same_both (failLimit_plain h)) fun _ => ?_
    refine bind_both (same_both (append_plain hm h)) fun b _ h => ite_both (fun _ => ?_) fun _ => same_both (failOpen_plain h)
    refine bind_both (escapeLoopIf_both (hacc.append htail) h) fun o' a' h => ?_
    cases o' with
    | none => exact same_both h
    | some limit' =>
      simp only [M.get_bind]
      have ht := htail.append (h.look.drop a.look.length)
      generalize tail ++ a'.look.drop a.look.length = t at ht ⊢
      have hmore : AG (cutNul t) := ht.mono cutNul_sub
      rw [resplitText_chars hd hmore]
      refine bind_both (same_both (resplitText_plain h)) fun _ _ h => ?_
      obtain ⟨e1, e2⟩ := decode_alike (c := x.cfg) (c' := (y).cfg) hd .quoted acc (cutNul t) hmore
      have e1 : decode (y).cfg (y).delim .quoted acc (cutNul t) = decode x.cfg x.delim .quoted acc (cutNul t) := e1
      have e2 : openLen (y).cfg (y).delim .quoted acc (cutNul t) = openLen x.cfg x.delim .quoted acc (cutNul t) := e2
      rw [e1, e2]
      cases hE : (decode x.cfg x.delim .quoted acc (cutNul t)).2 with
      | openQuote acc' =>
        refine ih _ _ _ _ _ _ ?_ ?_ h
        · intro b hb
          rcases decode_open_sub hd hE b hb with h1 | h1
          · exact hacc b h1
          · exact hmore b h1
        · unfold MRd.leftover; exact (ht.drop _).take _
      | _ => exact same_both h

theorem splitText_chars (hd : x.delim ≠ []) {t : Bytes} (ht : AG t) :
    MRd.splitText (y).cfg (y).delim t = MRd.splitText x.cfg x.delim t := by
  unfold MRd.splitText
  have : decodeRow (y).cfg (y).delim t = decodeRow x.cfg x.delim t := (decodeRow_alike hd ht).1
  rw [this]
  rfl

theorem parse_both (hd : x.delim ≠ []) {a : MRd} (h : PL a) : MRd.parse (y) a = MRd.parse x a ∧ Part PL (MRd.parse x a) := by
  unfold MRd.parse
  refine bind_both (escapeLoopIf_both .nil h) fun o a h => ?_
  cases o with
  | none => exact same_both h
  | some limit =>
    simp only [M.get_bind]
    have ht : AG (cutNul a.look) := h.look.mono cutNul_sub
    rw [splitText_chars hd ht]
    refine bind_both (same_both (splitText_plain h)) fun _ a' h' => ?_
    obtain ⟨e1, e2⟩ := decodeRow_alike (c := x.cfg) (c' := (y).cfg) (d := x.delim) hd ht
    have e1 : decodeRow (y).cfg (y).delim (cutNul a.look) = decodeRow x.cfg x.delim (cutNul a.look) := e1
    have e2 : openLenRow (y).cfg (y).delim (cutNul a.look) = openLenRow x.cfg x.delim (cutNul a.look) := e2
    rw [e1, e2]
    by_cases hm : x.cfg.multiline = true ∧ cutNul a.look ≠ []
    · cases hE : (decodeRow x.cfg x.delim (cutNul a.look)).2 with
      | openQuote acc =>
        have q1 : x.cfg.quote ≠ none := fun h0 => decodeRow_noQuote hd h0 _ _ hE
        have q2 : (y).cfg.quote ≠ none := fun h0 => decodeRow_noQuote hd h0 _ _ (show (decodeRow (y).cfg x.delim _).2 = _ from (congrArg Prod.snd e1).trans hE)
        rw [if_pos (show (y).cfg.multiline = true ∧ _ from ⟨hm.1, q2, hm.2⟩), if_pos ⟨hm.1, q1, hm.2⟩]
        refine quoteLoop_both hd hm.1 _ _ _ _ _ _ _ ?_ ?_ h'
        · intro b hb; exact ht b (decodeRow_open_sub hd hE b hb)
        · unfold MRd.leftover; exact (h.look.drop _).take _
      | _ =>
        dsimp only
        rw [ite_self, ite_self]
        exact ⟨rfl, h'⟩
    · rw [if_neg (show ¬ ((y).cfg.multiline = true ∧ (y).cfg.quote ≠ none ∧ cutNul a.look ≠ []) from fun h => hm ⟨h.1, h.2.2⟩),
        if_neg (show ¬ (x.cfg.multiline = true ∧ x.cfg.quote ≠ none ∧ cutNul a.look ≠ []) from fun h => hm ⟨h.1, h.2.2⟩)]
      exact same_both h'

end
end Ssp
