import Verif.Props.Raw
/-! # C105: middlewares of `OnMessage` and `HandleRaw` -/
namespace Tcpx
open Chain Spec

theorem all_in_use (h : List RegEv) (hu : ∀ k g, (k, g) ∈ firstUses h → inUse k h = true) : inUseAt h h = (firstUses h).map (·.2) := by
  unfold inUseAt
  rw [List.filter_eq_self.2]
  intro x hx
  exact hu x.1 x.2 hx

/-- C105 (if no middleware has been ended): `OnMessage` runs behind the global middlewares and those in use.
Missing: ended middlewares (`C105_onMessage_violated`). -/
theorem C105_onMessage_partial (h : List RegEv) (f : H) (hm : onMessage h = some f) (r : Srv.Routed)
    (hu : ∀ k g, (k, g) ∈ firstUses h → inUse k h = true) : (runHist h).handle r = .chain (globals h ++ inUseAt h h ++ [f]) := by
  rw [C32_onMessage h f hm r, all_in_use h hu]

example := C105_onMessage_partial [.setOnMessage (some 9), .use "b" 6, .use "a" 5] 9 rfl (.byId 1) (by
  intro k g hk
  simp [firstUses] at hk
  rcases hk with ⟨rfl, _⟩ | ⟨rfl, _⟩ <;> decide)

/-- C105 fails for `OnMessage`: every middleware ever used still runs after it has been ended with `UnUse` (tcpx.go:879-881). -/
theorem C105_onMessage_violated (h : List RegEv) (f : H) (hm : onMessage h = some f) (r : Srv.Routed) (k : String) (g : H)
    (hk : (k, g) ∈ firstUses h) (_hu : inUse k h = false) : ∃ c, (runHist h).handle r = .chain c ∧ g ∈ c := by
  refine ⟨_, C32_onMessage h f hm r, ?_⟩
  simp only [List.mem_append, List.mem_map]
  exact Or.inl (Or.inr ⟨_, hk, rfl⟩)

example := C105_onMessage_violated [.setOnMessage (some 9), .unUse "a", .use "a" 5] 9 rfl (.byId 1) "a" 5 (by decide) (by decide)

/-- C105 (if no middleware has been ended): a raw connection on which nothing aborts or panics runs the global middlewares, those in use, and
`HandleRaw`.  (At most 2019 handlers, see C39.)
Missing: ended middlewares (`C105_raw_violated`). -/
theorem C105_raw_partial (h : List RegEv) (raw : H) (hasOnClose : Bool) (st : RawState)
    (hlen : (globals h ++ inUseAt h h).length < 2019) (hu : ∀ k g, (k, g) ∈ firstUses h → inUse k h = true)
    (hr : RawSteps (rawInit (runHist h) (some raw) hasOnClose) st) (hend : ∀ st', ¬ RawStep st st')
    (ha : st.chain.aborted = false) (hp : st.chain.panicked = false) :
    st.trace = (globals h ++ inUseAt h h ++ [raw]).map .run ++ (if hasOnClose then [.onClose] else []) ++ [.closeConn] := by
  rw [all_in_use h hu] at hlen ⊢
  exact C78_all_run_partial h raw hasOnClose st hlen hr hend ha hp

-- a middleware in use, and HandleRaw
example : ∃ st, RawSteps (rawInit (runHist [.use "a" 5]) (some 9) false) st ∧ (∀ st', ¬ RawStep st st') ∧
    st.chain.aborted = false ∧ st.chain.panicked = false ∧ (inUse "a" [.use "a" 5] = true) ∧ st.trace = [.run 5, .run 9, .closeConn] := by
  refine ⟨_, .tail (.tail (.tail (.tail (.tail (.tail (.tail (.tail (.tail (.refl _)
    (.chain _ _ (.start _ [] 0 rfl (by decide) (by decide)) ?_)) (.chain _ _ (.ret _ _ 0 0 rfl) ?_)) (.chain _ _ (.postInc _ _ rfl) ?_))
    (.chain _ _ (.start _ [] 0 rfl (by decide) (by decide)) ?_)) (.chain _ _ (.ret _ _ 1 0 rfl) ?_)) (.chain _ _ (.postInc _ _ rfl) ?_))
    (.chain _ _ (.loopEnd _ [] rfl (by decide)) ?_))
    (.closeConn _ _ rfl rfl)) (.recover _ _ rfl rfl), ?_, rfl, rfl, rfl, rfl⟩
  · rintro ⟨i, n, K, h, _⟩; cases h
  · rintro ⟨i, n, K, h, hn⟩; cases h; cases hn
  · rintro ⟨i, n, K, h, _⟩; cases h
  · rintro ⟨i, n, K, h, _⟩; cases h
  · rintro ⟨i, n, K, h, hn⟩; cases h; cases hn
  · rintro ⟨i, n, K, h, _⟩; cases h
  · rintro ⟨i, n, K, h, _⟩; cases h
  · intro st' h
    cases h with
    | chain c h hn => exact step_not_end h rfl
    | onClose ds p h hd => cases hd
    | closeConn ds h hd => cases hd
    | recover ds h hd => cases hd

/-- C105 fails for `HandleRaw`: every middleware ever used still runs after it has been ended (tcpx.go:1006-1008), in every
execution in which nothing aborts or panics. -/
theorem C105_raw_violated (h : List RegEv) (raw : H) (hasOnClose : Bool) (st : RawState)
    (hlen : (globals h ++ (firstUses h).map (·.2)).length < 2019) (k : String) (g : H)
    (hk : (k, g) ∈ firstUses h) (_hu : inUse k h = false)
    (hr : RawSteps (rawInit (runHist h) (some raw) hasOnClose) st) (hend : ∀ st', ¬ RawStep st st')
    (ha : st.chain.aborted = false) (hp : st.chain.panicked = false) : .run g ∈ st.trace := by
  rw [C78_all_run_partial h raw hasOnClose st hlen hr hend ha hp]
  simp only [List.mem_append, List.mem_map]
  exact Or.inl (Or.inl ⟨g, Or.inl (Or.inr ⟨_, hk, rfl⟩), rfl⟩)

-- an ended middleware, and HandleRaw
example : ∃ st, RawSteps (rawInit (runHist [.unUse "a", .use "a" 5]) (some 9) false) st ∧ (∀ st', ¬ RawStep st st') ∧
    st.chain.aborted = false ∧ st.chain.panicked = false ∧ (inUse "a" [.unUse "a", .use "a" 5] = false) ∧ st.trace = [.run 5, .run 9, .closeConn] := by
  refine ⟨_, .tail (.tail (.tail (.tail (.tail (.tail (.tail (.tail (.tail (.refl _)
    (.chain _ _ (.start _ [] 0 rfl (by decide) (by decide)) ?_)) (.chain _ _ (.ret _ _ 0 0 rfl) ?_)) (.chain _ _ (.postInc _ _ rfl) ?_))
    (.chain _ _ (.start _ [] 0 rfl (by decide) (by decide)) ?_)) (.chain _ _ (.ret _ _ 1 0 rfl) ?_)) (.chain _ _ (.postInc _ _ rfl) ?_))
    (.chain _ _ (.loopEnd _ [] rfl (by decide)) ?_))
    (.closeConn _ _ rfl rfl)) (.recover _ _ rfl rfl), ?_, rfl, rfl, rfl, rfl⟩
  · rintro ⟨i, n, K, h, _⟩; cases h
  · rintro ⟨i, n, K, h, hn⟩; cases h; cases hn
  · rintro ⟨i, n, K, h, _⟩; cases h
  · rintro ⟨i, n, K, h, _⟩; cases h
  · rintro ⟨i, n, K, h, hn⟩; cases h; cases hn
  · rintro ⟨i, n, K, h, _⟩; cases h
  · rintro ⟨i, n, K, h, _⟩; cases h
  · intro st' h
    cases h with
    | chain c h hn => exact step_not_end h rfl
    | onClose ds p h hd => cases hd
    | closeConn ds h hd => cases hd
    | recover ds h hd => cases hd

end Tcpx
