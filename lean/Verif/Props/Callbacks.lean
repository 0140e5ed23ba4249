import Verif.Model.Callbacks
import Verif.Props.Chain
/-!
# C99–C101: the contexts handed to callbacks

`CbState.run s ls` ranges over everything that code given the context of a connection (or datagram), or copies of it, does with them.
-/
namespace Tcpx
open Chain

/-! ## C99 -/

/-- The last thing done to the place of the connection's own context in its (empty) chain was not undone. -/
def Spec.cursorMoved (ls : List CbStep) : Bool :=
  ls.foldl (fun b l => match l with
    | .call .conn .next => true
    | .call .conn .abort => true
    | .call .conn .resetOffset => false
    | _ => b) false

theorem cb_offset_step (s : CbState) (l : CbStep) (b : Bool) (h : b = false → s.ctx.offset = -1) :
    (match l with
      | .call .conn .next => true
      | .call .conn .abort => true
      | .call .conn .resetOffset => false
      | _ => b) = false → (s.step l).ctx.offset = -1 := by
  cases l with
  | copy => exact h
  | call x c =>
    cases x with
    | copy n =>
      intro hb
      have hb' : b = false := by cases c <;> exact hb
      have := h hb'
      simp only [CbState.step, CbState.fields]
      split
      · exact this
      · exact this
    | conn =>
      cases c <;> simp only [CbState.step, CbState.fields, CbState.setFields, CbCall.run] <;> intro hb <;>
        first
        | (cases hb; done)
        | rfl
        | (have := h hb; repeat' split) <;> exact this
        | trivial

theorem cb_offset (s : CbState) (ls : List CbStep) (b : Bool) (h : b = false → s.ctx.offset = -1) :
    (ls.foldl (fun b l => match l with
      | .call .conn .next => true
      | .call .conn .abort => true
      | .call .conn .resetOffset => false
      | _ => b) b) = false → (s.run ls).ctx.offset = -1 := by
  induction ls generalizing s b with
  | nil => exact h
  | cons l ls ih => exact ih (s.step l) _ (cb_offset_step s l b h)

/-- C99: if code given the connection's own context (`OnConnect`) leaves its place in the chain alone, or puts it back, every
chain begun on a copy (for a message, or `HandleRaw`) runs all its handlers in order, unless one aborts or panics.  (Chains of at most
2019 handlers, see C39.)
Missing: an `OnConnect` that moves it (`C99_next_violated`, `C99_abort_violated`). -/
theorem C99_all_run_partial (c : Nat) (ls : List CbStep) (hm : Spec.cursorMoved ls = false) (s : Nat) (hs : s ≤ 2019) (st : State)
    (h : Steps (initOn ((CbState.tcp c).run ls).ctx.copy s) st) (hend : st.stack = []) (ha : st.aborted = false)
    (hp : st.panicked = false) : st.started = List.range s := by
  have ho : ((CbState.tcp c).run ls).ctx.offset = -1 := cb_offset (.tcp c) ls false (fun _ => rfl) hm
  have : initOn ((CbState.tcp c).run ls).ctx.copy s = init s := by simp [initOn, init, CtxF.copy, ho]
  rw [this] at h
  exact C39_all_run_partial s hs st h hend ha hp

example : ∃ st, Steps (initOn ((CbState.tcp 0).run
      [.call .conn (.setConn (.str "a") (.num 1)), .call .conn .next, .call .conn .resetOffset]).ctx.copy 1) st ∧
    Spec.cursorMoved [.call .conn (.setConn (.str "a") (.num 1)), .call .conn .next, .call .conn .resetOffset] = false ∧
    st.stack = [] ∧ st.started = [0] := by
  refine ⟨_, .tail (.tail (.tail (.tail (.refl _) (.start _ [] 0 rfl (by decide) (by decide))) (.ret _ _ 0 0 rfl))
    (.postInc _ _ rfl)) (.loopEnd _ _ rfl (by decide)), rfl, rfl, rfl⟩

theorem offset_mono {a b : State} (k : Int) (hk : k ≤ ABORT) (h : Steps a b) (h0 : k ≤ a.offset) (hst : ∀ i ∈ a.started, k ≤ (i : Int)) :
    k ≤ b.offset ∧ ∀ i ∈ b.started, k ≤ (i : Int) := by
  induction h with
  | refl => exact ⟨h0, hst⟩
  | tail _ hs ih =>
    obtain ⟨h1, h2⟩ := ih
    cases hs with
    | start K n hs ho hab =>
      refine ⟨h1, ?_⟩
      intro i hi
      rcases List.mem_append.1 hi with hi | hi
      · exact h2 i hi
      · rw [List.mem_singleton] at hi
        subst hi
        omega
    | postInc K hs => exact ⟨Int.le_trans h1 (by simp; omega), h2⟩
    | next K i n hs => exact ⟨Int.le_trans h1 (by simp; omega), h2⟩
    | abort K i n hs => exact ⟨hk, h2⟩
    | abortReturn => exact ⟨h1, h2⟩
    | loopEnd => exact ⟨h1, h2⟩
    | work => exact ⟨h1, h2⟩
    | ret => exact ⟨h1, h2⟩
    | panic => exact ⟨h1, h2⟩

/-- C99 fails if `OnConnect` calls `Next` on its context (as middlewares do): the copies inherit its place in the chain (context.go:95), so
of every message of the connection the first handler, say a middleware that checks permissions, is never run, in no execution. -/
theorem C99_next_violated (c s : Nat) (st : State)
    (h : Steps (initOn ((CbState.tcp c).run [.call .conn .next]).ctx.copy s) st) : 0 ∉ st.started := by
  intro h0
  have := (offset_mono 1 (by decide) h (by simp [initOn, CbState.tcp, CbState.run, CbState.step, CbState.fields, CbState.setFields, CbCall.run, CtxF.newTcp, CtxF.copy]) (by intro i hi; cases hi)).2 0 h0
  omega

example : ∃ st, Steps (initOn ((CbState.tcp 0).run [.call .conn .next]).ctx.copy 2) st ∧ st.stack = [] ∧ st.started = [1] := by
  refine ⟨_, .tail (.tail (.tail (.tail (.refl _) (.start _ [] 0 rfl (by decide) (by decide))) (.ret _ _ 1 0 rfl))
    (.postInc _ _ rfl)) (.loopEnd _ _ rfl (by decide)), rfl, rfl⟩

/-- C99 fails if `OnConnect` calls `Abort`: no handler of any chain of the connection is ever run. -/
theorem C99_abort_violated (c s : Nat) (st : State)
    (h : Steps (initOn ((CbState.tcp c).run [.call .conn .abort]).ctx.copy s) st) : st.started = [] := by
  have key : ∀ {a b : State}, Steps a b → a.started = [] → ABORT ≤ a.offset → b.started = [] ∧ ABORT ≤ b.offset := by
    intro a b hab h1 h2
    induction hab with
    | refl => exact ⟨h1, h2⟩
    | tail _ hs ih =>
      obtain ⟨h3, h4⟩ := ih
      cases hs with
      | start K n hs ho hab => exact absurd h4 hab
      | postInc K hs => exact ⟨h3, Int.le_trans h4 (by simp; omega)⟩
      | next K i n hs => exact ⟨h3, Int.le_trans h4 (by simp; omega)⟩
      | abort K i n hs => exact ⟨h3, Int.le_refl _⟩
      | abortReturn => exact ⟨h3, h4⟩
      | loopEnd => exact ⟨h3, h4⟩
      | work => exact ⟨h3, h4⟩
      | ret => exact ⟨h3, h4⟩
      | panic => exact ⟨h3, h4⟩
  exact (key h rfl (by simp [initOn, CbState.tcp, CbState.run, CbState.step, CbState.fields, CbState.setFields, CbCall.run, CtxF.newTcp, CtxF.copy]; omega)).1

/-! ## C100 -/

/-- What was last stored for the connection under a key, by the methods meant for it or (as requests share the store of their connection,
see C36) by `SetCtxPerRequest` on a copy; newest entry first. -/
def Spec.lastStored (k : Key) : List (CtxName × CbCall × CbRes) → Option Any
  | [] => none
  | (_, .setConn k' v, .done) :: l => if k' = k then some v else lastStored k l
  | (_, .setUsername u, _) :: l => if k = .str "tcpx-username" then some (.str u) else lastStored k l
  | (.copy _, .setReq k' v, _) :: l => if k' = k then some v else lastStored k l
  | _ :: l => lastStored k l

structure CbInv (c : Nat) (s : CbState) : Prop where
  ctx : s.ctx.udp = false ∧ s.ctx.conn = some (.conn c) ∧ s.ctx.req = some (.own c) ∧ s.ctx.link = c
  copies : ∀ f ∈ s.copies, f.udp = false ∧ f.conn = some (.conn c) ∧ f.req = some (.conn c) ∧ f.link = c
  mem : ∀ k, s.mem (.conn c) k = Spec.lastStored k s.log
  fine : ∀ x call, (x, call, CbRes.panicked) ∈ s.log → ∃ k v, call = .setConn k v ∧ ∃ u, k = .str u ∧ "tcpx-".toList <+: u.toList
  gets : ∀ l1 x k r l2, s.log = l1 ++ (x, .getConn k, r) :: l2 → r = .value (Spec.lastStored k l2)

theorem reservedKey_iff (k : Key) : reservedKey k = true ↔ ∃ u, k = .str u ∧ "tcpx-".toList <+: u.toList := by
  cases k with
  | str s => simp [reservedKey, List.isPrefixOf_iff_prefix]
  | other n => simp [reservedKey]

theorem gets_cons {log : List (CtxName × CbCall × CbRes)} {e : CtxName × CbCall × CbRes}
    (h : ∀ l1 x k r l2, log = l1 ++ (x, .getConn k, r) :: l2 → r = .value (Spec.lastStored k l2))
    (he : ∀ k, e.2.1 = .getConn k → e.2.2 = .value (Spec.lastStored k log)) :
    ∀ l1 x k r l2, e :: log = l1 ++ (x, .getConn k, r) :: l2 → r = .value (Spec.lastStored k l2) := by
  intro l1 x k r l2 heq
  cases l1 with
  | nil =>
    simp only [List.nil_append, List.cons.injEq] at heq
    obtain ⟨h1, h2⟩ := heq
    subst h1; subst h2
    exact he k rfl
  | cons a l1 =>
    simp only [List.cons_append, List.cons.injEq] at heq
    exact h l1 x k r l2 heq.2

theorem fine_cons {log : List (CtxName × CbCall × CbRes)} {e : CtxName × CbCall × CbRes} {P : CbCall → Prop}
    (h : ∀ x call, (x, call, CbRes.panicked) ∈ log → P call) (he : e.2.2 = .panicked → P e.2.1) :
    ∀ x call, (x, call, CbRes.panicked) ∈ e :: log → P call := by
  intro x call hm
  rcases List.mem_cons.1 hm with hm | hm
  · subst hm; exact he rfl
  · exact h x call hm

theorem cbInv_step {c : Nat} {s : CbState} (iv : CbInv c s) (l : CbStep) : CbInv c (s.step l) := by
  cases l with
  | copy =>
    refine ⟨iv.ctx, ?_, iv.mem, iv.fine, iv.gets⟩
    intro f hf
    rcases List.mem_append.1 hf with hf | hf
    · exact iv.copies f hf
    · rw [List.mem_singleton] at hf
      subst hf
      obtain ⟨h1, h2, h3, h4⟩ := iv.ctx
      exact ⟨h1, h2, h2, h4⟩
  | call x call =>
    cases hx : s.fields x with
    | none => simp only [CbState.step, hx]; exact iv
    | some f =>
      have hf : f.udp = false ∧ f.conn = some (.conn c) ∧ f.link = c ∧ (f.req = some (.conn c) ∧ (∃ n, x = .copy n) ∨ f.req = some (.own c) ∧ x = .conn) := by
        cases x with
        | conn =>
          simp only [CbState.fields, Option.some.injEq] at hx
          subst hx
          obtain ⟨h1, h2, h3, h4⟩ := iv.ctx
          exact ⟨h1, h2, h4, Or.inr ⟨h3, rfl⟩⟩
        | copy n =>
          simp only [CbState.fields] at hx
          obtain ⟨h1, h2, h3, h4⟩ := iv.copies f (List.mem_of_getElem? hx)
          exact ⟨h1, h2, h4, Or.inl ⟨h3, n, rfl⟩⟩
      obtain ⟨hu, hc, hlk, hr⟩ := hf
      have hstore : f.store = some (.conn c) := by simp [CtxF.store, hu, hc]
      simp only [CbState.step, hx]
      -- the fields stay of the same shape
      have hshape : ∀ g : CtxF, g.udp = f.udp → g.conn = f.conn → g.req = f.req → g.link = f.link →
          let s' := s.setFields g x
          (s'.ctx.udp = false ∧ s'.ctx.conn = some (.conn c) ∧ s'.ctx.req = some (.own c) ∧ s'.ctx.link = c) ∧
          (∀ f ∈ s'.copies, f.udp = false ∧ f.conn = some (.conn c) ∧ f.req = some (.conn c) ∧ f.link = c) := by
        intro g g1 g2 g3 g4
        cases x with
        | conn =>
          refine ⟨?_, iv.copies⟩
          rcases hr with ⟨_, n, h⟩ | ⟨hr, _⟩
          · cases h
          · exact ⟨g1.trans hu, g2.trans hc, g3.trans hr, g4.trans hlk⟩
        | copy n =>
          refine ⟨iv.ctx, ?_⟩
          intro f' hf'
          rcases List.mem_or_eq_of_mem_set hf' with h | h
          · exact iv.copies f' h
          · subst h
            rcases hr with ⟨hr, _⟩ | ⟨_, h⟩
            · exact ⟨g1.trans hu, g2.trans hc, g3.trans hr, g4.trans hlk⟩
            · cases h
      cases call with
      | setConn k v =>
        by_cases hk : reservedKey k = true
        · simp only [CbCall.run, hk, if_true]
          obtain ⟨a, b⟩ := hshape f rfl rfl rfl rfl
          exact ⟨a, b, iv.mem, fine_cons iv.fine (fun _ => ⟨k, v, rfl, (reservedKey_iff k).1 hk⟩),
            gets_cons iv.gets (by intro k h; cases h)⟩
        · simp only [CbCall.run, hk, hstore]
          obtain ⟨a, b⟩ := hshape f rfl rfl rfl rfl
          refine ⟨a, b, ?_, fine_cons iv.fine (by intro h; cases h), gets_cons iv.gets (by intro k h; cases h)⟩
          intro k'
          have := iv.mem k'
          by_cases hkk : k = k'
          · subst hkk; simp [Mem.put, Spec.lastStored]
          · simp [Mem.put, Spec.lastStored, hkk, Ne.symm hkk, this]
      | getConn k =>
        simp only [CbCall.run, hstore]
        obtain ⟨a, b⟩ := hshape f rfl rfl rfl rfl
        refine ⟨a, b, ?_, fine_cons iv.fine (by intro h; cases h), gets_cons iv.gets ?_⟩
        · intro k'; simp [Spec.lastStored, iv.mem k']
        · intro k' h; cases h; exact congrArg _ (iv.mem k)
      | setReq k v =>
        obtain ⟨a, b⟩ := hshape f rfl rfl rfl rfl
        rcases hr with ⟨hr, n, hn⟩ | ⟨hr, hn⟩
        · simp only [CbCall.run, hr]
          refine ⟨a, b, ?_, fine_cons iv.fine (by intro h; cases h), gets_cons iv.gets (by intro k h; cases h)⟩
          intro k'
          have := iv.mem k'
          subst hn
          by_cases hkk : k = k'
          · subst hkk; simp [Mem.put, Spec.lastStored]
          · simp [Mem.put, Spec.lastStored, hkk, Ne.symm hkk, this]
        · simp only [CbCall.run, hr]
          refine ⟨a, b, ?_, fine_cons iv.fine (by intro h; cases h), gets_cons iv.gets (by intro k h; cases h)⟩
          intro k'
          subst hn
          simp [Mem.put, Spec.lastStored, iv.mem k']
      | getReq k =>
        obtain ⟨a, b⟩ := hshape f rfl rfl rfl rfl
        have hreq : ∃ q, f.req = some q := by
          rcases hr with ⟨hr, _⟩ | ⟨hr, _⟩ <;> exact ⟨_, hr⟩
        obtain ⟨q, hq⟩ := hreq
        simp only [CbCall.run, hq]
        refine ⟨a, b, ?_, fine_cons iv.fine (by intro h; cases h), gets_cons iv.gets (by intro k h; cases h)⟩
        intro k'; simp [Spec.lastStored, iv.mem k']
      | setUsername u =>
        simp only [CbCall.run, hstore]
        obtain ⟨a, b⟩ := hshape f rfl rfl rfl rfl
        refine ⟨a, b, ?_, fine_cons iv.fine (by intro h; cases h), gets_cons iv.gets (by intro k h; cases h)⟩
        intro k'
        by_cases hkk : k' = .str "tcpx-username"
        · subst hkk; simp [Mem.put, Spec.lastStored, usernameKey]
        · simp [Mem.put, Spec.lastStored, usernameKey, hkk, iv.mem k']
      | next =>
        obtain ⟨a, b⟩ := hshape { f with offset := f.offset + 1 } rfl rfl rfl rfl
        refine ⟨a, b, ?_, fine_cons iv.fine (by intro h; cases h), gets_cons iv.gets (by intro k h; cases h)⟩
        intro k'; simp [CbCall.run, Spec.lastStored, iv.mem k']
      | abort =>
        obtain ⟨a, b⟩ := hshape { f with offset := ABORT } rfl rfl rfl rfl
        refine ⟨a, b, ?_, fine_cons iv.fine (by intro h; cases h), gets_cons iv.gets (by intro k h; cases h)⟩
        intro k'; simp [CbCall.run, Spec.lastStored, iv.mem k']
      | resetOffset =>
        obtain ⟨a, b⟩ := hshape { f with offset := -1 } rfl rfl rfl rfl
        refine ⟨a, b, ?_, fine_cons iv.fine (by intro h; cases h), gets_cons iv.gets (by intro k h; cases h)⟩
        intro k'; simp [CbCall.run, Spec.lastStored, iv.mem k']
      | initReader =>
        obtain ⟨a, b⟩ := hshape { f with reader := some f.link } rfl rfl rfl rfl
        have hif : CbCall.run s.mem f .initReader = (.done, s.mem, { f with reader := some f.link }) := by
          simp only [CbCall.run]; rw [if_neg (by simp [hu])]
        rw [hif]
        refine ⟨a, b, ?_, fine_cons iv.fine (by intro h; cases h), gets_cons iv.gets (by intro k h; cases h)⟩
        intro k'; simp [Spec.lastStored, iv.mem k']

theorem cbInv_run (c : Nat) (ls : List CbStep) : CbInv c ((CbState.tcp c).run ls) := by
  have : ∀ s, CbInv c s → CbInv c (s.run ls) := by
    induction ls with
    | nil => exact fun s h => h
    | cons l ls ih => exact fun s h => ih _ (cbInv_step h l)
  refine this _ ⟨⟨rfl, rfl, rfl, rfl⟩, ?_, ?_, ?_, ?_⟩
  · intro f hf; cases hf
  · intro k; rfl
  · intro x call hm; cases hm
  · intro l1 x k r l2 h
    simp [CbState.tcp] at h

/-- C100 (connections): whatever callbacks and handlers of a connection do with their contexts, no method panics, except
`SetCtxPerConn` given a reserved key.
Missing: `OnHeartbeatLoss` of a datagram (`C100_loss_violated`). -/
theorem C100_no_panic_partial (c : Nat) (ls : List CbStep) (x : CtxName) (call : CbCall)
    (h : (x, call, CbRes.panicked) ∈ ((CbState.tcp c).run ls).log) :
    ∃ u v, call = .setConn (.str u) v ∧ "tcpx-".toList <+: u.toList := by
  obtain ⟨k, v, h1, u, h2, h3⟩ := (cbInv_run c ls).fine x call h
  subst h2
  exact ⟨u, v, h1, h3⟩

/-- C100 (connections): in callbacks and handlers alike, `GetCtxPerConn` returns what was last stored for the connection.
Missing: datagrams (`C100_loss_violated`). -/
theorem C100_values_partial (c : Nat) (ls : List CbStep) (l1 l2 : List (CtxName × CbCall × CbRes)) (x : CtxName) (k : Key) (r : CbRes)
    (h : ((CbState.tcp c).run ls).log = l1 ++ (x, .getConn k, r) :: l2) : r = .value (Spec.lastStored k l2) :=
  (cbInv_run c ls).gets l1 x k r l2 h

example : ((CbState.tcp 4).run [.call .conn (.setUsername "u"), .copy, .call (.copy 0) (.setConn (.str "a") (.num 1)), .copy,
      .call (.copy 1) (.getConn (.str "a")), .call .conn (.getConn (.str "tcpx-username")),
      .call .conn (.setConn (.str "tcpx-username") (.num 0))]).log =
    [(.conn, .setConn (.str "tcpx-username") (.num 0), .panicked), (.conn, .getConn (.str "tcpx-username"), .value (some (.str "u"))),
     (.copy 1, .getConn (.str "a"), .value (some (.num 1))), (.copy 0, .setConn (.str "a") (.num 1), .done),
     (.conn, .setUsername "u", .done)] := by decide

theorem udp_shape (d : Nat) (ls : List CbStep) :
    (((CbState.udp d).run ls).ctx.udp = true ∧ ((CbState.udp d).run ls).ctx.conn = none ∧ ((CbState.udp d).run ls).ctx.req = some (.own d)) ∧
    (∀ f ∈ ((CbState.udp d).run ls).copies, f.udp = true ∧ f.req = none) ∧
    (∀ call, (CtxName.conn, call, CbRes.panicked) ∈ ((CbState.udp d).run ls).log →
      ∃ k v, call = .setConn k v ∧ reservedKey k = true) := by
  have key : ∀ (s : CbState), ((s.ctx.udp = true ∧ s.ctx.conn = none ∧ s.ctx.req = some (.own d)) ∧
      (∀ f ∈ s.copies, f.udp = true ∧ f.req = none) ∧
      (∀ call, (CtxName.conn, call, CbRes.panicked) ∈ s.log → ∃ k v, call = .setConn k v ∧ reservedKey k = true)) →
      (((s.run ls).ctx.udp = true ∧ (s.run ls).ctx.conn = none ∧ (s.run ls).ctx.req = some (.own d)) ∧
      (∀ f ∈ (s.run ls).copies, f.udp = true ∧ f.req = none) ∧
      (∀ call, (CtxName.conn, call, CbRes.panicked) ∈ (s.run ls).log → ∃ k v, call = .setConn k v ∧ reservedKey k = true)) := by
    induction ls with
    | nil => exact fun s h => h
    | cons l ls ih =>
      intro s ⟨⟨h1, h2, h3⟩, h4, h5⟩
      apply ih
      cases l with
      | copy =>
        refine ⟨⟨h1, h2, h3⟩, ?_, h5⟩
        intro f hf
        rcases List.mem_append.1 hf with hf | hf
        · exact h4 f hf
        · rw [List.mem_singleton] at hf; subst hf; exact ⟨h1, h2⟩
      | call x call =>
        cases x with
        | conn =>
          have hst : s.ctx.store = some (.own d) := by simp [CtxF.store, h1, h3]
          have hlog : ∀ r, (r = CbRes.panicked → ∃ k v, call = .setConn k v ∧ reservedKey k = true) →
              ∀ call', (CtxName.conn, call', CbRes.panicked) ∈ (CtxName.conn, call, r) :: s.log →
                ∃ k v, call' = .setConn k v ∧ reservedKey k = true := by
            intro r hr call' hm
            rcases List.mem_cons.1 hm with hm | hm
            · cases hm; exact hr rfl
            · exact h5 _ hm
          cases call with
          | setConn k v =>
            by_cases hk : reservedKey k = true
            · simp only [CbState.step, CbState.fields, CbCall.run, hk, if_true, CbState.setFields]
              exact ⟨by simp [h1, h2, h3], h4, hlog _ (fun _ => ⟨k, v, rfl, hk⟩)⟩
            · simp only [CbState.step, CbState.fields, CbCall.run, hk, hst, CbState.setFields]
              exact ⟨by simp [h1, h2, h3], h4, hlog _ (fun h => by cases h)⟩
          | getConn k =>
            simp only [CbState.step, CbState.fields, CbCall.run, hst, CbState.setFields]
            exact ⟨by simp [h1, h2, h3], h4, hlog _ (fun h => by cases h)⟩
          | setReq k v =>
            simp only [CbState.step, CbState.fields, CbCall.run, h3, CbState.setFields]
            exact ⟨by simp [h1, h2, h3], h4, hlog _ (fun h => by cases h)⟩
          | getReq k =>
            simp only [CbState.step, CbState.fields, CbCall.run, h3, CbState.setFields]
            exact ⟨by simp [h1, h2, h3], h4, hlog _ (fun h => by cases h)⟩
          | setUsername u =>
            simp only [CbState.step, CbState.fields, CbCall.run, hst, CbState.setFields]
            exact ⟨by simp [h1, h2, h3], h4, hlog _ (fun h => by cases h)⟩
          | next => exact ⟨⟨h1, h2, h3⟩, h4, hlog _ (fun h => by cases h)⟩
          | abort => exact ⟨⟨h1, h2, h3⟩, h4, hlog _ (fun h => by cases h)⟩
          | resetOffset => exact ⟨⟨h1, h2, h3⟩, h4, hlog _ (fun h => by cases h)⟩
          | initReader =>
            simp only [CbState.step, CbState.fields, CbCall.run, h1, if_true, CbState.setFields]
            exact ⟨by simp [h1, h2, h3], h4, hlog _ (fun h => by cases h)⟩
        | copy n =>
          cases hx : s.fields (.copy n) with
          | none => simp only [CbState.step, hx]; exact ⟨⟨h1, h2, h3⟩, h4, h5⟩
          | some f =>
            obtain ⟨f1, f2⟩ := h4 f (List.mem_of_getElem? hx)
            have hst : f.store = none := by simp [CtxF.store, f1, f2]
            have hset : ∀ g : CtxF, g.udp = f.udp → g.req = f.req → ∀ f' ∈ s.copies.set n g, f'.udp = true ∧ f'.req = none := by
              intro g g1 g2 f' hf'
              rcases List.mem_or_eq_of_mem_set hf' with h | h
              · exact h4 f' h
              · subst h; exact ⟨g1.trans f1, g2.trans f2⟩
            simp only [CbState.step, hx]
            refine ⟨⟨h1, h2, h3⟩, ?_, ?_⟩
            · cases call <;> simp only [CbCall.run, CbState.setFields] <;> (repeat' split) <;> exact hset _ rfl rfl
            · intro call' hm
              rcases List.mem_cons.1 hm with hm | hm
              · cases hm
              · exact h5 _ hm
  exact key _ ⟨⟨rfl, rfl, rfl⟩, (by intro f hf; cases hf), (by intro call hm; cases hm)⟩

/-- C100 (handlers of datagrams): no method of a datagram's own context panics, except `SetCtxPerConn` given a reserved key.
Missing: the copy given to `OnHeartbeatLoss` (`C100_loss_violated`). -/
theorem C100_datagram_partial (d : Nat) (ls : List CbStep) (call : CbCall)
    (h : (CtxName.conn, call, CbRes.panicked) ∈ ((CbState.udp d).run ls).log) :
    ∃ u v, call = .setConn (.str u) v ∧ "tcpx-".toList <+: u.toList := by
  obtain ⟨k, v, h1, h2⟩ := (udp_shape d ls).2.2 call h
  obtain ⟨u, h3, h4⟩ := (reservedKey_iff k).1 h2
  subst h3
  exact ⟨u, v, h1, h4⟩

/-- C100 fails for `OnHeartbeatLoss` of a datagram: its context is a copy, which has no store at all (context.go:91-92, 208), so every
method that uses one panics, whatever happened before. -/
theorem C100_loss_violated (d : Nat) (ls : List CbStep) (n : Nat) (call : CbCall)
    (hn : n < ((CbState.udp d).run ls).copies.length)
    (hc : (∃ k v, call = .setConn k v) ∨ (∃ k, call = .getConn k) ∨ (∃ k v, call = .setReq k v) ∨ (∃ k, call = .getReq k) ∨
      ∃ u, call = .setUsername u) :
    ∃ l, ((CbState.udp d).run (ls ++ [.call (.copy n) call])).log = (.copy n, call, .panicked) :: l := by
  have hrun : (CbState.udp d).run (ls ++ [.call (.copy n) call]) = ((CbState.udp d).run ls).step (.call (.copy n) call) := by
    simp [CbState.run]
  rw [hrun]
  generalize hs : (CbState.udp d).run ls = s at hn ⊢
  have hx : s.fields (.copy n) = some s.copies[n] := by simp [CbState.fields, hn]
  obtain ⟨f1, f2⟩ := (udp_shape d ls).2.1 s.copies[n] (by rw [hs]; exact List.getElem_mem hn)
  have hst : s.copies[n].store = none := by simp [CtxF.store, f1, f2]
  simp only [CbState.step, hx]
  rcases hc with ⟨k, v, rfl⟩ | ⟨k, rfl⟩ | ⟨k, v, rfl⟩ | ⟨k, rfl⟩ | ⟨u, rfl⟩
  · simp only [CbCall.run, hst]
    split <;> exact ⟨_, rfl⟩
  · simp only [CbCall.run, hst]; exact ⟨_, rfl⟩
  · simp only [CbCall.run, f2]; exact ⟨_, rfl⟩
  · simp only [CbCall.run, f2]; exact ⟨_, rfl⟩
  · simp only [CbCall.run, hst]; exact ⟨_, rfl⟩

example := C100_loss_violated 3 [.call .conn (.setUsername "u"), .copy] 0 (.getConn (.str "tcpx-username")) (by decide)
  (Or.inr (Or.inl ⟨_, rfl⟩))

/-! ## C101 -/

/-- C101: on a raw connection `InitReaderAndWriter` is called after `OnConnect` and before the copy for `HandleRaw` is made (tcpx.go:460,
479-481); whatever `OnConnect` did, the copy reads and writes this connection, and does so for good. -/
theorem C101_reader (c : Nat) (ls ls' : List CbStep) :
    let s := ((CbState.tcp c).run ls).step (.call .conn .initReader)
    let s' := (s.step .copy).run ls'
    ∃ f, s'.fields (.copy s.copies.length) = some f ∧ f.reader = some c := by
  intro s s'
  have iv := cbInv_run c ls
  have hr : s.ctx.reader = some c := by
    obtain ⟨h1, _, _, h4⟩ := iv.ctx
    simp only [s, CbState.step, CbState.fields, CbCall.run, h1, CbState.setFields]
    simp [h4]
  have iv0 : CbInv c (s.step .copy) := cbInv_step (cbInv_step iv _) _
  have key : ∀ (t : CbState) (n : Nat), CbInv c t → (∃ f, t.fields (.copy n) = some f ∧ f.reader = some c) →
      ∃ f, (t.run ls').fields (.copy n) = some f ∧ f.reader = some c := by
    induction ls' with
    | nil => exact fun t n _ h => h
    | cons l ls' ih =>
      intro t n it ⟨f, hf, hfr⟩
      apply ih _ n (cbInv_step it l)
      cases l with
      | copy =>
        refine ⟨f, ?_, hfr⟩
        simp only [CbState.fields, CbState.step] at hf ⊢
        rw [List.getElem?_append_left (List.getElem?_eq_some_iff.1 hf).1]
        exact hf
      | call x call =>
        cases hx : t.fields x with
        | none => simp only [CbState.step, hx]; exact ⟨f, hf, hfr⟩
        | some g =>
          simp only [CbState.step, hx]
          cases x with
          | conn => exact ⟨f, hf, hfr⟩
          | copy m =>
            by_cases hm : m = n
            · subst hm
              rw [hf] at hx; cases hx
              have hlk := (it.copies f (List.mem_of_getElem? hf)).2.2.2
              have hlt : m < t.copies.length := (List.getElem?_eq_some_iff.1 hf).1
              refine ⟨(call.run t.mem f).2.2, by simp [CbState.fields, CbState.setFields, hlt], ?_⟩
              cases call <;> simp only [CbCall.run] <;> (repeat' split) <;> first | exact hfr | (simp [hlk]; done)
            · exact ⟨f, by simp only [CbState.fields, CbState.setFields] at hf ⊢; rw [List.getElem?_set_ne hm]; exact hf, hfr⟩
  apply key _ _ iv0
  refine ⟨s.ctx.copy, ?_, hr⟩
  simp [CbState.fields, CbState.step]

example := C101_reader 5 [.call .conn .next, .copy] [.copy, .call (.copy 1) (.setConn (.str "a") (.num 1)), .call (.copy 0) .initReader]

/-- C101: on UDP there is no reader and writer, `InitReaderAndWriter` says so. -/
theorem C101_datagram (d : Nat) (ls : List CbStep) (x : CtxName) (r : CbRes)
    (h : (x, .initReader, r) ∈ ((CbState.udp d).run ls).log) : r = .failed := by
  have key : ∀ (s : CbState), s.ctx.udp = true → (∀ f ∈ s.copies, f.udp = true) → (∀ x r, (x, CbCall.initReader, r) ∈ s.log → r = .failed) →
      ∀ x r, (x, CbCall.initReader, r) ∈ (s.run ls).log → r = .failed := by
    clear h
    induction ls with
    | nil => exact fun s _ _ h => h
    | cons l ls ih =>
      intro s h1 h2 h3
      apply ih
      all_goals cases l with
      | copy =>
        first
        | exact h1
        | exact h3
        | (intro f hf
           rcases List.mem_append.1 hf with hf | hf
           · exact h2 f hf
           · rw [List.mem_singleton] at hf; subst hf; exact h1)
      | call x call =>
        cases hx : s.fields x with
        | none => simp only [CbState.step, hx]; first | exact h1 | exact h2 | exact h3
        | some f =>
          have hf : f.udp = true := by
            cases x with
            | conn => simp only [CbState.fields, Option.some.injEq] at hx; subst hx; exact h1
            | copy n => exact h2 f (List.mem_of_getElem? hx)
          have hrun : (call.run s.mem f).2.2.udp = true := by
            cases call <;> simp only [CbCall.run] <;> (repeat' split) <;> exact hf
          simp only [CbState.step, hx]
          first
          | (cases x with
             | conn => exact hrun
             | copy n => exact h1)
          | (cases x with
             | conn => exact h2
             | copy n =>
               intro f' hf'
               rcases List.mem_or_eq_of_mem_set hf' with h | h
               · exact h2 f' h
               · subst h; exact hrun)
          | (intro x' r' hm
             rcases List.mem_cons.1 hm with hm | hm
             · simp only [Prod.mk.injEq] at hm
               obtain ⟨_, rfl, rfl⟩ := hm
               simp [CbCall.run, hf]
             · exact h3 x' r' hm)
  exact key (.udp d) rfl (by intro f hf; cases hf) (by intro x r h; cases h) x r h

example : ((CbState.udp 1).run [.call .conn .initReader]).log = [(.conn, .initReader, .failed)] := by decide

end Tcpx
