import Verif.Model.UserThrowChain
import Verif.Props.UserThrow
import Verif.Props.ParserChain
import Verif.Props.ParserChainMl
/-!
# C60: exceptions of the user's code in composites
-/
namespace Ssp
open Spec

/-! ## Nothing is thrown -/

theorem unless_tryInvoke (x : Ctx) (v : List Val) (a : Parser.UCAlt) : Unless (Parser.tryInvokeU x v a) (Parser.tryInvoke x v a.fn) := by
  unfold Parser.tryInvokeU
  by_cases h : (a.fn.isSome && a.throws v) = true
  · rw [if_pos h]; exact fun s => .inl ⟨s, rfl⟩
  · rw [if_neg h]; exact Unless.map_some _

theorem unless_getNext (x : Ctx) (us : List UReq) : Unless (Parser.getNextU x us) (Parser.getNext x (us.map (·.req))) := by
  intro s
  by_cases h : ∃ s', Parser.getNextU x us s = .ok none s'
  · exact .inl h
  · exact .inr (C60_no_throw x us s fun s' hs => h ⟨s', hs⟩)

theorem unless_tryNext (x : Ctx) (a : Parser.UCAlt) : Unless (Parser.tryNextUC x a) (Parser.tryNext x a.plain) := by
  unfold Parser.tryNextUC Parser.tryNext
  refine Unless.bind_opt (unless_getNext x a.reqs) rfl fun v => Unless.bind_same fun s => ?_
  by_cases h : s.valid x.cfg = true
  · rw [if_pos h, if_pos h]
    exact Unless.bind_opt (unless_tryInvoke x v a) rfl fun _ => Unless.bind_same fun _ => Unless.some_pure _
  · rw [if_neg h, if_neg h]; exact Unless.some_pure _

theorem unless_trySame (x : Ctx) (us : List UReq) : Unless (Parser.trySameU x us) (Parser.trySame x (us.map (·.req))) := by
  unfold Parser.trySameU Parser.trySame
  refine Unless.bind_same fun _ => Unless.bind_opt (unless_onCur _ us) rfl fun v => ?_
  exact Unless.bind_same fun _ => Unless.bind_same fun _ => Unless.some_pure _

theorem unless_orElse (x : Ctx) (a : Parser.UCAlt) : Unless (Parser.orElseU x a) (Parser.orElse x a.plain) := by
  unfold Parser.orElseU Parser.orElse
  refine Unless.bind_same fun s => ?_
  by_cases h : s.valid x.cfg = true
  · rw [if_pos h, if_pos h]; exact Unless.some_pure _
  · rw [if_neg h, if_neg h]
    refine Unless.bind_opt (unless_trySame x a.reqs) rfl fun v => Unless.bind_same fun s => ?_
    by_cases h : s.valid x.cfg = true
    · rw [if_pos h, if_pos h]
      exact Unless.bind_opt (unless_tryInvoke x v a) rfl fun _ => Unless.bind_same fun _ => Unless.some_pure _
    · rw [if_neg h, if_neg h]; exact Unless.some_pure _

theorem onErrorU_eq (x : Ctx) (t : Bytes → Bool) (s : Parser) : Parser.onErrorU x t s =
    .ok (if s.valid x.cfg then some none else if t s.err.msg then none else some (some s.err.msg)) s := by
  unfold Parser.onErrorU
  rw [M.bind_apply]
  unfold Parser.onError
  by_cases h : s.valid x.cfg = true
  · simp only [if_pos h]; rfl
  · simp only [if_neg h]
    by_cases h2 : t s.err.msg = true
    · simp only [if_pos h2]; rfl
    · simp only [if_neg h2]; rfl

theorem unless_onError (x : Ctx) (t : Bytes → Bool) : Unless (Parser.onErrorU x t) (Parser.onError x) := by
  intro s
  rw [onErrorU_eq]
  unfold Parser.onError
  by_cases h : s.valid x.cfg = true
  · right; simp only [if_pos h]; rfl
  · simp only [if_neg h]
    by_cases h2 : t s.err.msg = true
    · left; rw [if_pos h2]; exact ⟨s, rfl⟩
    · right; rw [if_neg h2]; rfl

theorem unless_links (x : Ctx) : ∀ ls : List Parser.ULink, Unless (Parser.linksU x ls) (Parser.links x (ls.map (·.plain)))
  | [] => Unless.some_pure _
  | .orElse a :: ls => by
    unfold Parser.linksU
    show Unless _ (Parser.links x (.orElse a.plain :: ls.map (·.plain)))
    unfold Parser.links
    exact Unless.bind_opt (unless_orElse x a) rfl fun r => Unless.bind_opt (unless_links x ls) rfl fun _ => Unless.some_pure _
  | .onError t :: ls => by
    unfold Parser.linksU
    show Unless _ (Parser.links x (.onError :: ls.map (·.plain)))
    unfold Parser.links
    exact Unless.bind_opt (unless_onError x t) rfl fun r => Unless.bind_opt (unless_links x ls) rfl fun _ => Unless.some_pure _

/-- C60: a composite that no exception of the user's code leaves is the composite of the other theorems. -/
theorem C60_chain_no_throw (x : Ctx) (a : Parser.UCAlt) (ls : List Parser.ULink) (s : Parser)
    (h : ∀ s', Parser.tryLinksU x a ls s ≠ .ok none s') :
    Parser.tryLinksU x a ls s = (Parser.tryLinks x a.plain (ls.map (·.plain)) s).map some := by
  have key : Unless (Parser.tryLinksU x a ls) (Parser.tryLinks x a.plain (ls.map (·.plain))) := by
    unfold Parser.tryLinksU Parser.tryLinks
    exact Unless.bind_opt (unless_tryNext x a) rfl fun r => Unless.bind_opt (unless_links x ls) rfl fun _ => Unless.some_pure _
  rcases key s with ⟨s', h'⟩ | h'
  · exact absurd h' (h s')
  · exact h'

/-! ## Something is thrown -/

theorem bind_none {σ α β : Type} {mu : M σ (Option α)} {F : Option α → M σ (Option β)} {s s1 : σ} (h : (mu >>= F) s = .ok none s1)
    (hF : F none = pure none) :
    mu s = .ok none s1 ∨ ∃ a s2, mu s = .ok (some a) s2 ∧ F (some a) s2 = .ok none s1 := by
  rw [M.bind_apply] at h
  cases hm : mu s with
  | ok o s2 =>
    rw [hm] at h
    cases o with
    | none => dsimp only at h; rw [hF] at h; cases h; exact .inl rfl
    | some a => exact .inr ⟨a, s2, rfl, h⟩
  | exc _ _ => rw [hm] at h; cases h
  | ub => rw [hm] at h; cases h
  | nofuel => rw [hm] at h; cases h

theorem Unless.of_some {σ α : Type} {mu : M σ (Option α)} {m : M σ α} (h : Unless mu m) {s s' : σ} {a : α} (hs : mu s = .ok (some a) s') :
    m s = .ok a s' := by
  rcases h s with ⟨s1, h1⟩ | h1
  · rw [h1] at hs; cases hs
  · rw [h1] at hs
    cases hm : m s with
    | ok b s2 => rw [hm] at hs; cases hs; rfl
    | exc _ _ => rw [hm] at hs; cases hs
    | ub => rw [hm] at hs; cases hs
    | nofuel => rw [hm] at hs; cases hs

theorem tryInvokeU_thrown {x : Ctx} {v : List Val} {a : Parser.UCAlt} {s s1 : Parser} (h : Parser.tryInvokeU x v a s = .ok none s1) :
    s1 = s ∧ a.throws v = true := by
  unfold Parser.tryInvokeU at h
  by_cases hf : (a.fn.isSome && a.throws v) = true
  · rw [if_pos hf] at h
    cases h
    simp at hf
    exact ⟨rfl, hf.2⟩
  · rw [if_neg hf] at h
    exact absurd h (Never.bind_same (fun _ => Never.some_pure _) _ _)

theorem trySameU_thrown {x : Ctx} {us : List UReq} {s s1 : Parser} (h : Parser.trySameU x us s = .ok none s1) :
    s1.valid x.cfg = true ∧
      (Parser.trySame x (strings us.length) s = .ub ∨ ∃ vs, Parser.trySame x (strings us.length) s = .ok vs s1) := by
  unfold Parser.trySameU at h
  unfold Parser.trySame
  simp only [Parser.clearError, M.modify_bind] at h ⊢
  rcases bind_none h rfl with h | ⟨v, s2, _, h⟩
  · unfold Parser.onCur at h
    dsimp only at h
    cases hc : Conv.convertCachedU x.cfg us s.rd.cur.conv with
    | ok o k =>
      rw [hc] at h
      cases h
      obtain ⟨k1, k2⟩ := convertCachedU_thrown hc
      refine ⟨ErrSt.valid_clear _ _, ?_⟩
      rcases k2 with k2 | ⟨vs, k2⟩
      · left
        rw [M.bind_apply]
        unfold Parser.onCur
        dsimp only
        rw [k2]
      · right
        refine ⟨vs, ?_⟩
        rw [M.bind_of_ok (a := vs) (s' := { s with err := s.err.clear x.cfg.mode, rd := { s.rd with cur := { s.rd.cur with conv := k } } })
          (by unfold Parser.onCur; dsimp only; rw [k2])]
        rw [M.get_bind]
        have hvk : Conv.valid x.cfg k = true := k1
        simp only [hvk, if_true]
        rfl
    | exc _ _ => rw [hc] at h; cases h
    | ub => rw [hc] at h; cases h
    | nofuel => rw [hc] at h; cases h
  · exact absurd h (Never.bind_same (fun _ => Never.bind_same fun _ => Never.some_pure _) _ _)

theorem orElse_silent {x : Ctx} {rs : List Req} {v : List Val} {s s1 : Parser} (hv : ¬ s.valid x.cfg = true)
    (h : Parser.trySame x rs s = .ok v s1) (hv1 : s1.valid x.cfg = true) :
    Parser.orElse x ⟨rs, none⟩ s = .ok (some v, false) s1 := by
  unfold Parser.orElse
  rw [M.get_bind, if_neg hv, M.bind_of_ok h, M.get_bind, if_pos hv1, M.bind_of_ok (show Parser.tryInvoke x v none s1 = .ok false s1 from rfl),
    M.get_bind, if_pos hv1]
  rfl

/-- a thrown `or_else` is an `or_else` that succeeded: to strings if a conversion threw, to the same types if the callback did -/
theorem orElseU_thrown {x : Ctx} {a : Parser.UCAlt} {s s1 : Parser} (h : Parser.orElseU x a s = .ok none s1)
    (hd : Parser.orElse x ⟨strings a.reqs.length, none⟩ s ≠ .ub) :
    ∃ rs out, Parser.orElse x ⟨rs, none⟩ s = .ok out s1 ∧ s1.valid x.cfg = true ∧ rs.length = a.reqs.length := by
  unfold Parser.orElseU at h
  rw [M.get_bind] at h
  by_cases hv : s.valid x.cfg = true
  · rw [if_pos hv] at h; cases h
  rw [if_neg hv] at h
  rcases bind_none h rfl with h | ⟨v, s2, h2, h⟩
  · -- a conversion threw
    obtain ⟨k1, k2 | ⟨vs, k2⟩⟩ := trySameU_thrown h
    · exfalso
      apply hd
      unfold Parser.orElse
      rw [M.get_bind, if_neg hv, M.bind_apply, k2]
    · exact ⟨_, _, orElse_silent hv k2 k1, k1, by simp [strings]⟩
  · -- the callback threw
    have h3 := (unless_trySame x a.reqs).of_some h2
    replace h : (M.get >>= fun s : Parser => if s.valid x.cfg = true then
        (Parser.tryInvokeU x v a >>= fun o => match o with
          | none => pure none
          | some called => M.get >>= fun s : Parser => pure (some (if s.valid x.cfg then some v else none, called)))
        else pure (some (none, false))) s2 = .ok none s1 := h
    rw [M.get_bind] at h
    by_cases hv2 : s2.valid x.cfg = true
    · rw [if_pos hv2] at h
      rcases bind_none h rfl with h | ⟨b, s4, _, h⟩
      · obtain ⟨rfl, _⟩ := tryInvokeU_thrown h
        exact ⟨_, _, orElse_silent hv h3 hv2, hv2, by simp⟩
      · exact absurd h (Never.bind_same (fun _ => Never.some_pure _) _ _)
    · rw [if_neg hv2] at h; cases h

/-- a thrown chain of `or_else` and `on_error` is a chain of `or_else` -/
theorem linksU_thrown {x : Ctx} : ∀ {ls : List Parser.ULink} {s s1 : Parser}, Parser.linksU x ls s = .ok none s1 →
    (∀ bs : List Parser.Alt, Parser.orElses x bs s ≠ .ub) →
    ∃ bs out, Parser.orElses x bs s = .ok out s1 ∧ bs.length ≤ ls.length ∧
      ((∀ a, .orElse a ∈ ls → a.reqs ≠ []) → ∀ b ∈ bs, b.reqs ≠ [])
  | [], s, s1, h, _ => by cases h
  | .orElse a :: ls, s, s1, h, hd => by
    unfold Parser.linksU at h
    have hne : ∀ b : Parser.Alt, Parser.orElse x b s ≠ .ub := by
      intro b hb
      apply hd [b]
      unfold Parser.orElses
      rw [M.bind_apply, hb]
    rcases bind_none h rfl with h | ⟨r, s2, h2, h⟩
    · obtain ⟨rs, out, k1, _, k3⟩ := orElseU_thrown h (hne _)
      refine ⟨[⟨rs, none⟩], [out], ?_, by simp, fun hn b hb => ?_⟩
      · unfold Parser.orElses
        rw [M.bind_of_ok k1]
        rfl
      · cases List.mem_singleton.mp hb
        intro h0
        have h0 : rs = [] := h0
        have := hn a (by simp)
        rw [h0] at k3
        exact this (List.length_eq_zero_iff.mp k3.symm)
    · rcases bind_none h rfl with h | ⟨_, _, _, h⟩
      · have h3 := (unless_orElse x a).of_some h2
        obtain ⟨bs, out, k1, k2, k3⟩ := linksU_thrown h (fun bs hb => by
          apply hd (a.plain :: bs)
          unfold Parser.orElses
          rw [M.bind_of_ok h3, M.bind_apply, hb])
        refine ⟨a.plain :: bs, r :: out, ?_, by simp; omega, fun hn b hb => ?_⟩
        · unfold Parser.orElses
          rw [M.bind_of_ok h3, M.bind_of_ok k1]
          rfl
        · rcases List.mem_cons.mp hb with rfl | hb
          · intro h0
            exact hn a (by simp) (List.map_eq_nil_iff.mp h0)
          · exact k3 (fun a ha => hn a (by simp [ha])) b hb
      · cases h
  | .onError t :: ls, s, s1, h, hd => by
    unfold Parser.linksU at h
    rcases bind_none h rfl with h | ⟨r, s2, h2, h4⟩
    · rw [onErrorU_eq] at h
      injection h with _ h
      subst h
      exact ⟨[], [], rfl, by simp, fun _ b hb => by cases hb⟩
    · have hs2 : s2 = s := by
        rw [onErrorU_eq] at h2
        injection h2 with _ h2
        exact h2.symm
      subst hs2
      replace h : (Parser.linksU x ls >>= fun o => match o with
          | none => pure none
          | some rest => pure (some (Parser.LinkOut.err r :: rest))) s2 = .ok none s1 := h4
      rcases bind_none h rfl with h | ⟨_, _, _, h⟩
      · obtain ⟨bs, out, k1, k2, k3⟩ := linksU_thrown h hd
        exact ⟨bs, out, k1, by simp; omega, fun hn => k3 fun a ha => hn a (by simp [ha])⟩
      · cases h

theorem tryNextUC_thrown {x : Ctx} {a : Parser.UCAlt} {s s1 : Parser} (h : Parser.tryNextUC x a s = .ok none s1)
    (hn : ∀ s', Parser.getNextU x a.reqs s ≠ .ok none s') :
    ∃ out, Parser.tryNext x ⟨a.reqs.map (·.req), none⟩ s = .ok out s1 := by
  unfold Parser.tryNextUC at h
  rcases bind_none h rfl with h | ⟨v, s2, h2, h⟩
  · exact absurd h (hn _)
  · have h3 := (unless_getNext x a.reqs).of_some h2
    replace h : (M.get >>= fun s : Parser => if s.valid x.cfg = true then
        (Parser.tryInvokeU x v a >>= fun o => match o with
          | none => pure none
          | some called => M.get >>= fun s : Parser => pure (some (if s.valid x.cfg then some v else none, called)))
        else pure (some (none, false))) s2 = .ok none s1 := h
    rw [M.get_bind] at h
    by_cases hv2 : s2.valid x.cfg = true
    · rw [if_pos hv2] at h
      rcases bind_none h rfl with h | ⟨b, s4, _, h⟩
      · obtain ⟨rfl, _⟩ := tryInvokeU_thrown h
        refine ⟨(some v, false), ?_⟩
        unfold Parser.tryNext
        rw [M.bind_of_ok h3, M.get_bind, if_pos hv2, M.bind_of_ok (show Parser.tryInvoke x v none s1 = .ok false s1 from rfl),
          M.get_bind, if_pos hv2]
        rfl
      · exact absurd h (Never.bind_same (fun _ => Never.some_pure _) _ _)
    · rw [if_neg hv2] at h; cases h

theorem chain_defined {x : Ctx} {s : Parser} (hx : x.Ok) (h : Parser.ReachT x s) (hm : x.cfg.multiline = false ∨ x.Resumable s.line)
    (he : s.eof = false) (b : Parser.Alt) (bs : List Parser.Alt) : Parser.tryChain x b bs s ≠ .ub := by
  have hT : (Op.chain b bs).Tame x s.line s.eof := fun hml _ _ _ => by
    rcases hm with hm | hm
    · rw [hm] at hml; cases hml
    · exact .inr (.inr hm)
  obtain ⟨os, s', hrun, _⟩ := C54_calls_multiline_partial hx h [.chain b bs] ⟨hT, fun _ _ _ => trivial⟩
  intro hub
  have hex : Op.exec x (.chain b bs) s = .ub := by
    show (M.get >>= fun s : Parser => if s.eof = true then pure (Ret.opts []) else Parser.tryChain x b bs >>= fun l => pure (Ret.opts l)) s = _
    rw [M.get_bind, if_neg (by rw [he]; decide), M.bind_apply, hub]
  simp only [Parser.run, Parser.step, hex] at hrun
  cases hrun

/-- C60, for composites: at any time of a life, when there is a row to read, suppose an exception of the user's code leaves
`try_next(...).or_else(...).on_error(...)` - any conversion, validator or callback in it, but not a conversion of the first alternative
(for these see `C60_recover_partial`).  Then the parser is exactly as after some composite that was not left: one whose alternatives
are those before the one that threw, and that one without a callback or with strings for its types.  So nothing has to be repaired:
every theorem about parsers in use applies to what follows. -/
theorem C60_chain {x : Ctx} {s s1 : Parser} {a : Parser.UCAlt} {ls : List Parser.ULink} (hx : x.Ok) (h : Parser.ReachT x s)
    (hm : x.cfg.multiline = false ∨ x.Resumable s.line) (he : s.eof = false)
    (hn : ∀ s', Parser.getNextU x a.reqs s ≠ .ok none s') (ht : Parser.tryLinksU x a ls s = .ok none s1) :
    ∃ b bs o, Parser.step x (.chain b bs) s = some (o, s1) ∧ Parser.ReachT x s1 ∧ bs.length ≤ ls.length ∧
      ((a.reqs ≠ [] ∧ ∀ c, .orElse c ∈ ls → c.reqs ≠ []) → ∀ c ∈ b :: bs, c.reqs ≠ []) := by
  have key : ∃ b bs out, Parser.tryChain x b bs s = .ok out s1 ∧ bs.length ≤ ls.length ∧
      ((a.reqs ≠ [] ∧ ∀ c, .orElse c ∈ ls → c.reqs ≠ []) → ∀ c ∈ b :: bs, c.reqs ≠ []) := by
    unfold Parser.tryLinksU at ht
    rcases bind_none ht rfl with ht | ⟨r, s2, h2, ht⟩
    · obtain ⟨out, k⟩ := tryNextUC_thrown ht hn
      refine ⟨⟨a.reqs.map (·.req), none⟩, [], [out], ?_, by simp, fun hr c hc => ?_⟩
      · unfold Parser.tryChain Parser.orElses
        rw [M.bind_of_ok k]
        rfl
      · cases List.mem_singleton.mp hc
        intro h0
        exact hr.1 (List.map_eq_nil_iff.mp h0)
    · have h3 := (unless_tryNext x a).of_some h2
      replace ht : (Parser.linksU x ls >>= fun o => match o with
          | none => pure none
          | some rest => pure (some (Parser.LinkOut.opt r.1 r.2 :: rest))) s2 = .ok none s1 := ht
      rcases bind_none ht rfl with ht | ⟨_, _, _, ht⟩
      · obtain ⟨bs, out, k1, k2, k3⟩ := linksU_thrown ht fun bs hb => by
          apply chain_defined hx h hm he a.plain bs
          unfold Parser.tryChain
          rw [M.bind_of_ok h3, M.bind_apply, hb]
        refine ⟨a.plain, bs, r :: out, ?_, k2, fun hr c hc => ?_⟩
        · unfold Parser.tryChain
          rw [M.bind_of_ok h3, M.bind_of_ok k1]
          rfl
        · rcases List.mem_cons.mp hc with rfl | hc
          · intro h0
            exact hr.1 (List.map_eq_nil_iff.mp h0)
          · exact k3 hr.2 c hc
      · cases ht
  obtain ⟨b, bs, out, k1, k2, k3⟩ := key
  have hT : (Op.chain b bs).Tame x s.line s.eof := fun hml _ _ _ => by
    rcases hm with hm | hm
    · rw [hm] at hml; cases hml
    · exact .inr (.inr hm)
  have hex : Op.exec x (.chain b bs) s = .ok (.opts out) s1 := by
    show (M.get >>= fun s : Parser => if s.eof = true then pure (Ret.opts []) else Parser.tryChain x b bs >>= fun l => pure (Ret.opts l)) s = _
    rw [M.get_bind, if_neg (by rw [he]; decide), M.bind_of_ok k1]
    rfl
  have hst : Parser.step x (.chain b bs) s = some (Parser.observe x (.opts out) s1, s1) := by
    simp only [Parser.step, hex]
  exact ⟨b, bs, _, hst, h.step hT hst, k2, k3⟩

/-- C60, for composites, in terms of rows: the exception costs exactly the row it was thrown at. -/
theorem C60_chain_rows {x : Ctx} {s s1 : Parser} {a : Parser.UCAlt} {ls : List Parser.ULink} {r : Bytes} {rows : List Bytes} (hx : x.Ok)
    (hm : x.cfg.multiline = false) (hth : x.cfg.mode ≠ .throw) (h : Parser.ReachT x s) (hr : x.rest s.line = r :: rows)
    (he : s.eof = false) (ha : a.reqs ≠ []) (hl : ∀ c, .orElse c ∈ ls → c.reqs ≠ [])
    (hn : ∀ s', Parser.getNextU x a.reqs s ≠ .ok none s') (ht : Parser.tryLinksU x a ls s = .ok none s1) :
    Parser.ReachT x s1 ∧ x.rest s1.line = rows ∧ s1.eof = rows.isEmpty ∧ (x.cfg.ignoreEmpty = false → s1.line = s.line + 1) ∧
      ∀ k, s1.converter k = s.converter k := by
  obtain ⟨b, bs, o, k1, k2, _, k4⟩ := C60_chain hx h (.inl hm) he hn ht
  obtain ⟨o', s', outs, e1, _, _, _, _, e2, e3, e4, e5⟩ := C41_first_that_suits hx hm hth h.reach hr (k4 ⟨ha, hl⟩)
  rw [k1] at e1
  cases e1
  exact ⟨k2, e2, e3, e4, e5⟩

/-- C60, for composites with multiline: the exception costs exactly the row, of one or more lines, it was thrown at. -/
theorem C60_chain_rows_multiline {x : Ctx} {s s1 : Parser} {a : Parser.UCAlt} {ls : List Parser.ULink} {k : Nat} (hx : x.MlOk)
    (hth : x.cfg.mode ≠ .throw) (h : Parser.ReachT x s) (hk : x.RowTo s.line k)
    (he : s.eof = false) (ha : a.reqs ≠ []) (hl : ∀ c, .orElse c ∈ ls → c.reqs ≠ [])
    (hn : ∀ s', Parser.getNextU x a.reqs s ≠ .ok none s') (ht : Parser.tryLinksU x a ls s = .ok none s1) :
    Parser.ReachT x s1 ∧ x.rest s1.line = x.rest (s.line + k + 1) ∧ s1.eof = (x.rest (s.line + k + 1)).isEmpty ∧
      s.line + k + 1 ≤ s1.line ∧ ∀ l, s1.converter l = s.converter l := by
  obtain ⟨b, bs, o, k1, k2, _, k4⟩ := C60_chain hx.ok h (.inr ⟨hx, k, hk⟩) he hn ht
  obtain ⟨o', s', outs, e1, _, _, _, _, e2, e3, e4, _, e5, _⟩ := C41_first_that_suits_multiline hx hth h hk (k4 ⟨ha, hl⟩)
  rw [k1] at e1
  cases e1
  exact ⟨k2, e2, e3, e4, e5⟩

/-! ## The hypotheses are met -/

namespace Demo

/-- `p.try_next<int, int>().or_else<int>()` where the last conversion throws for "2" -/
def pairs : Parser.UCAlt := { reqs := [⟨num, fun _ => false⟩, ⟨num, fun _ => false⟩] }
def orPicky : List Parser.ULink := [.onError fun _ => false, .orElse { reqs := [picky] }]

/-- the composite, which is left by an exception, and then `get_next<int>()` -/
def thrownThen (c : Cfg) (d : String) (a : Parser.UCAlt) (ls : List Parser.ULink) (rs : List Req) : Option (List Val) :=
  match Parser.tryLinksU (ctx c d) a ls (start c d) with
  | .ok none s1 => (match Parser.getNext (ctx c d) rs s1 with | .ok v _ => some v | _ => none)
  | _ => none

end Demo

open Demo in
/-- a conversion, a callback of `or_else` and the callback of `on_error` that throw; the next row is read each time -/
example : thrownThen cs "2\n3\n" pairs orPicky [num] = some [.int 3] ∧
    thrownThen cs "2\n3\n" pairs [.orElse { reqs := [⟨num, fun _ => false⟩], fn := some fun _ => none, throws := fun _ => true }] [num] = some [.int 3] ∧
    thrownThen cs "2\n3\n" pairs [.onError fun _ => true] [num] = some [.int 3] := by
  decide +kernel

open Demo in
/-- the hypotheses of `C60_chain` and `C60_chain_rows` are met -/
example : (ctx cs "2\n3\n").Ok ∧ cs.multiline = false ∧ cs.mode ≠ .throw ∧ Parser.ReachT (ctx cs "2\n3\n") (start cs "2\n3\n") ∧
    (ctx cs "2\n3\n").rest (start cs "2\n3\n").line = [bs "2", bs "3"] ∧ (start cs "2\n3\n").eof = false ∧
    (∀ s', Parser.getNextU (ctx cs "2\n3\n") pairs.reqs (start cs "2\n3\n") ≠ .ok none s') ∧
    ∃ a s, Parser.tryLinksU (ctx cs "2\n3\n") pairs orPicky (start cs "2\n3\n") = .ok a s ∧ a = none := by
  refine ⟨ok cs cs_wf _, rfl, by decide, (created cs_wf rfl _).reachT, by decide +kernel, by decide +kernel, fun s' hs => ?_,
    Res.ok_of (by decide +kernel)⟩
  rw [C60_quiet _ _ _ (by intro u hu t; simp [pairs] at hu; subst hu; rfl)] at hs
  cases hg : Parser.getNext (ctx cs "2\n3\n") (pairs.reqs.map (·.req)) (start cs "2\n3\n") with
  | ok _ _ => rw [hg] at hs; cases hs
  | exc _ _ => rw [hg] at hs; cases hs
  | ub => rw [hg] at hs; cases hs
  | nofuel => rw [hg] at hs; cases hs

end Ssp
