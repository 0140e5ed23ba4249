import Verif.Model.Lifecycle
import Verif.Spec.Lifecycle
/-!
# C60, C65, C66, C67, C73 and part of C64: the server life cycle
-/
namespace Tcpx
open Spec

/-! ## C67: listener records -/

def LRec.endpoint (r : LRec) : String × String := (r.network, r.port)

/-- The records after a history of listening calls on a new server. -/
def recsAfter (h : Listens) : List LRec := h.foldl (fun rs x => fillProperty x.1 x.2.1 x.2.2 rs) []

theorem replaceListener_spec (n p : String) (l : Nat) (rs : List LRec) :
    (replaceListener n p l rs = none ∧ (n, p) ∉ rs.map LRec.endpoint) ∨
    (∃ rs', replaceListener n p l rs = some rs' ∧ (n, p) ∈ rs.map LRec.endpoint ∧ rs'.map LRec.endpoint = rs.map LRec.endpoint ∧
      ((rs.map LRec.endpoint).Nodup → ∀ r, r ∈ rs' ↔ (r ∈ rs ∧ r.endpoint ≠ (n, p)) ∨ r = ⟨n, p, l⟩)) := by
  induction rs with
  | nil => exact .inl ⟨rfl, by simp⟩
  | cons r rs ih =>
    simp only [replaceListener]
    by_cases h : r.network = n ∧ r.port = p
    · rw [if_pos h]
      refine .inr ⟨_, rfl, ?_, ?_, ?_⟩
      · simp [LRec.endpoint, h]
      · simp [LRec.endpoint]
      · intro hnd q
        simp only [List.map_cons, List.nodup_cons, List.mem_map, not_exists, not_and] at hnd
        have hr : r.endpoint = (n, p) := by simp [LRec.endpoint, h]
        simp only [List.mem_cons]
        have he : ({ r with listener := l } : LRec) = ⟨n, p, l⟩ := by
          obtain ⟨h1, h2⟩ := h; subst h1; subst h2; rfl
        rw [he]
        constructor
        · rintro (rfl | hq)
          · exact .inr rfl
          · exact .inl ⟨.inr hq, fun hqe => hnd.1 q hq (by rw [hqe, hr])⟩
        · rintro (⟨rfl | hq, hne⟩ | rfl)
          · exact absurd hr hne
          · exact .inr hq
          · exact .inl rfl
    · rw [if_neg h]
      have hr : r.endpoint ≠ (n, p) := by
        intro he
        simp only [LRec.endpoint, Prod.mk.injEq] at he
        exact h he
      rcases ih with ⟨h1, h2⟩ | ⟨rs', h1, h2, h3, h4⟩
      · refine .inl ⟨by rw [h1]; rfl, ?_⟩
        simp only [List.map_cons, List.mem_cons, not_or]
        exact ⟨fun he => hr he.symm, h2⟩
      · refine .inr ⟨r :: rs', by rw [h1]; rfl, ?_, ?_, ?_⟩
        · simp only [List.map_cons, List.mem_cons]; exact .inr h2
        · simp only [List.map_cons, h3]
        · intro hnd q
          simp only [List.map_cons, List.nodup_cons] at hnd
          have := h4 hnd.2 q
          simp only [List.mem_cons, this]
          constructor
          · rintro (rfl | ⟨hq, hne⟩ | rfl)
            · exact .inl ⟨.inl rfl, hr⟩
            · exact .inl ⟨.inr hq, hne⟩
            · exact .inr rfl
          · rintro (⟨rfl | hq, hne⟩ | rfl)
            · exact .inl rfl
            · exact .inr (.inl ⟨hq, hne⟩)
            · exact .inr (.inr rfl)

theorem endpointsInOrder_append (es : List (String × String)) (e : String × String) :
    endpointsInOrder (es ++ [e]) = if e ∈ endpointsInOrder es then endpointsInOrder es else endpointsInOrder es ++ [e] := by
  induction es with
  | nil => simp [endpointsInOrder]
  | cons a es ih =>
    have hc : endpointsInOrder (a :: es) = a :: (endpointsInOrder es).filter (· ≠ a) := rfl
    have hl : endpointsInOrder (a :: es ++ [e]) = a :: (endpointsInOrder (es ++ [e])).filter (· ≠ a) := rfl
    rw [hl, ih]
    by_cases hm : e ∈ endpointsInOrder (a :: es)
    · rw [if_pos hm, hc]
      rw [hc, List.mem_cons, List.mem_filter] at hm
      by_cases h : e ∈ endpointsInOrder es
      · rw [if_pos h]
      · rw [if_neg h]
        rcases hm with rfl | hm
        · simp
        · exact absurd hm.1 h
    · rw [if_neg hm, hc]
      rw [hc, List.mem_cons, List.mem_filter] at hm
      have hae : e ≠ a := fun h => hm (.inl h)
      have h : e ∉ endpointsInOrder es := fun h => hm (.inr ⟨h, by simp [hae]⟩)
      rw [if_neg h]
      simp [hae]

theorem endpointsInOrder_nodup (es : List (String × String)) : (endpointsInOrder es).Nodup := by
  induction es with
  | nil => simp [endpointsInOrder]
  | cons a es ih => simp only [endpointsInOrder, List.nodup_cons]; exact ⟨by simp, ih.filter _⟩

theorem lastListener_append (h : Listens) (x : String × String × Nat) (e : String × String) :
    lastListener (h ++ [x]) e = if (x.1, x.2.1) = e then some x.2.2 else lastListener h e := by
  unfold lastListener
  rw [List.reverse_append, List.reverse_singleton, List.singleton_append, List.find?_cons]
  by_cases hx : (x.1, x.2.1) = e
  · simp [hx]
  · simp [hx]

/-- C67: after any history of listening calls there is one record for each endpoint used, in the order of first use, holding the
listener of the latest call for that endpoint. -/
theorem C67_records (h : Listens) :
    (recsAfter h).map LRec.endpoint = endpointsInOrder (h.map fun x => (x.1, x.2.1)) ∧
    ((recsAfter h).map LRec.endpoint).Nodup ∧
    ∀ r ∈ recsAfter h, lastListener h r.endpoint = some r.listener := by
  suffices H : (recsAfter h).map LRec.endpoint = endpointsInOrder (h.map fun x => (x.1, x.2.1)) ∧
      ∀ r ∈ recsAfter h, lastListener h r.endpoint = some r.listener by
    exact ⟨H.1, by rw [H.1]; exact endpointsInOrder_nodup _, H.2⟩
  have hind : ∀ h' : Listens, (recsAfter h'.reverse).map LRec.endpoint = endpointsInOrder (h'.reverse.map fun x => (x.1, x.2.1)) ∧
      ∀ r ∈ recsAfter h'.reverse, lastListener h'.reverse r.endpoint = some r.listener := by
    intro h'
    induction h' with
    | nil => exact ⟨rfl, by simp [recsAfter]⟩
    | cons x h' ih =>
      obtain ⟨ih1, ih2⟩ := ih
      have hstep : recsAfter ((x :: h').reverse) = fillProperty x.1 x.2.1 x.2.2 (recsAfter h'.reverse) := by
        simp [recsAfter]
      rw [hstep, List.reverse_cons, List.map_append, List.map_singleton, endpointsInOrder_append, ← ih1]
      unfold fillProperty
      have hnd : ((recsAfter h'.reverse).map LRec.endpoint).Nodup := by rw [ih1]; exact endpointsInOrder_nodup _
      rcases replaceListener_spec x.1 x.2.1 x.2.2 (recsAfter h'.reverse) with ⟨h1, h2⟩ | ⟨rs', h1, h2, h3, h4⟩
      · rw [h1, if_neg h2]
        refine ⟨by simp [LRec.endpoint], ?_⟩
        intro r hr
        rw [lastListener_append]
        rcases List.mem_append.1 hr with hr | hr
        · rw [if_neg, ih2 r hr]
          intro he
          exact h2 (by rw [he]; exact List.mem_map_of_mem hr)
        · simp only [List.mem_singleton] at hr
          subst hr
          simp [LRec.endpoint]
      · rw [h1, if_pos h2]
        refine ⟨h3, ?_⟩
        intro r hr
        rw [lastListener_append]
        rcases (h4 hnd r).1 hr with ⟨hr, hne⟩ | rfl
        · rw [if_neg (Ne.symm hne), ih2 r hr]
        · simp [LRec.endpoint]
  have := hind h.reverse
  rwa [List.reverse_reverse] at this

example : recsAfter [("tcp", ":1", 10), ("udp", ":1", 11), ("tcp", ":1", 12)] = [⟨"tcp", ":1", 12⟩, ⟨"udp", ":1", 11⟩] := by decide

/-! ## C60, C66 -/

/-- C66: `Stop` on a stopped server, `Start` on a running one and `Restart` on a stopped one return an error; nothing changes and no
callback is run. -/
theorem C66_wrong_state (s : Life) (b : Bool) (cbs : List (Nat × Bool)) :
    (s.state = .stopped → (∃ e, s.stop b = (.err e, s)) ∧ ∃ e, s.restart b cbs = (.err e, [], s)) ∧
    (s.state = .running → ∃ e, s.start = .err e) := by
  refine ⟨fun h => ?_, fun h => ⟨_, by rw [Life.start, if_pos h]⟩⟩
  have hs : s.stop b = (.err .other, s) := by rw [Life.stop, if_pos h]
  exact ⟨⟨_, hs⟩, _, by rw [Life.restart, hs]⟩

example : (({} : Life).listen "tcp" ":1" 1).start ≠ .ok 1 ∧ ({} : Life).restart true [(4, false)] = (.err .other, [], {}) := by decide

/-- C60: on a running server `Stop` closes the listener of every record whose network is "tcp" or "udp" and leaves the state stopped;
a second `Stop` returns an error and changes nothing.
Missing: listeners on other networks (`C60_other_networks_violated`). -/
theorem C60_stop_partial (s : Life) (b : Bool) (hr : s.state = .running) :
    (s.stop b).2.state = .stopped ∧
    (∀ r ∈ s.recs, r.network = "tcp" ∨ r.network = "udp" → r.listener ∈ (s.stop b).2.closed) ∧
    (∀ l ∈ s.closed, l ∈ (s.stop b).2.closed) ∧
    ∀ b', ∃ e, (s.stop b).2.stop b' = (.err e, (s.stop b).2) := by
  have hne : ¬ s.state = .stopped := by rw [hr]; simp
  have hcl : (s.stop b).2.closed = s.closed ++ (s.recs.filter Life.stopsListener).map (·.listener) ∧ (s.stop b).2.state = .stopped := by
    unfold Life.stop
    rw [if_neg hne]
    simp only
    cases b with
    | false => exact ⟨rfl, rfl⟩
    | true =>
      simp only [if_true, Life.closeAllConnection]
      cases s.withSignals with
      | true => cases s.sig <;> exact ⟨rfl, rfl⟩
      | false => cases s.pool <;> exact ⟨rfl, rfl⟩
  refine ⟨hcl.2, ?_, ?_, ?_⟩
  · intro r hr' hn
    rw [hcl.1]
    refine List.mem_append.2 (.inr (List.mem_map.2 ⟨r, List.mem_filter.2 ⟨hr', ?_⟩, rfl⟩))
    rcases hn with h | h <;> simp [Life.stopsListener, h]
  · intro l hl
    rw [hcl.1]
    exact List.mem_append.2 (.inl hl)
  · intro b'
    exact ((C66_wrong_state _ b' []).1 hcl.2).1

/-- C60 is violated for every listener on another network `ListenAndServe` accepts, such as "tcp4" or "unix": `Stop` leaves it open. -/
theorem C60_other_networks_violated (s : Life) (b : Bool) (r : LRec)
    (hn : r.network ∈ ["tcp4", "tcp6", "unix", "unixpacket", "udp4", "udp6", "unixgram"])
    (hone : ∀ r' ∈ s.recs, r'.listener = r.listener → r' = r) (hopen : r.listener ∉ s.closed) :
    r.listener ∉ (s.stop b).2.closed := by
  have hns : Life.stopsListener r = false := by
    simp only [List.mem_cons, List.not_mem_nil, or_false] at hn
    rcases hn with h | h | h | h | h | h | h <;> simp [Life.stopsListener, h]
  have hcl : (s.stop b).2.closed = s.closed ∨
      (s.stop b).2.closed = s.closed ++ (s.recs.filter Life.stopsListener).map (·.listener) := by
    unfold Life.stop
    by_cases h : s.state = .stopped
    · rw [if_pos h]; exact .inl rfl
    · rw [if_neg h]
      right
      cases b with
      | false => rfl
      | true =>
        simp only [if_true, Life.closeAllConnection]
        cases s.withSignals with
        | true => cases s.sig <;> rfl
        | false => cases s.pool <;> rfl
  rcases hcl with h | h
  · rw [h]; exact hopen
  · rw [h]
    intro hm
    rcases List.mem_append.1 hm with hm | hm
    · exact hopen hm
    · obtain ⟨r', hr', he⟩ := List.mem_map.1 hm
      obtain ⟨hr', hs⟩ := List.mem_filter.1 hr'
      have := hone r' hr' he
      subst this
      rw [hns] at hs; cases hs

example : ((({} : Life).listen "tcp" ":1" 1).listen "tcp4" ":2" 2).stop true =
    (.ok (), { recs := [⟨"tcp", ":1", 1⟩, ⟨"tcp4", ":2", 2⟩], closed := [1] }) := by decide

/-! ## C62: what `Stop(true)` does to the pool -/

/-- Without broadcast signals `Stop(true)` on a running server succeeds, starts the goroutine that closes the members of the pool in use,
and no other, and leaves the server with a pool that has never been used.
Missing: what that goroutine does (`C62_deadlock_violated`, `C62_strangers_partial`). -/
theorem C62_stop_partial (s : Life) (hr : s.state = .running) (hw : s.withSignals = false) (p : Nat) (hp : s.pool = some p) :
    (s.stop true).1 = .ok () ∧ (s.stop true).2.sweeps = s.sweeps ++ [p] ∧ (s.stop true).2.pool = some s.pools ∧
    (s.stop true).2.state = .stopped := by
  simp [Life.stop, hr, Life.closeAllConnection, hw, hp]

example : let s := (({} : Life).withBuiltInPool).listen "tcp" ":1" 1
    s.state = .running ∧ s.pool = some 0 ∧ (s.stop true).2.sweeps = [0] ∧ (s.stop true).2.pool = some 1 := by decide

/-- What an application does to a server. -/
inductive Spec.LifeOp where
  | pool | signals (yes : Bool) | listen (network port : String) (l : Nat) | stop (closeAll : Bool)
  | restart (closeAll : Bool) (callbacks : List (Nat × Bool))

/-- The server after one operation. -/
def Spec.LifeOp.apply (s : Life) : Spec.LifeOp → Life
  | .pool => s.withBuiltInPool
  | .signals yes => s.withBroadCastSignal yes
  | .listen n p l => s.listen n p l
  | .stop b => (s.stop b).2
  | .restart b cbs => (s.restart b cbs).2.2

/-- The pool in use is not one whose members have been or are being closed. -/
def PoolFresh (s : Life) : Prop := (∀ p ∈ s.sweeps, p < s.pools) ∧ ∀ p, s.pool = some p → p < s.pools ∧ p ∉ s.sweeps

theorem poolFresh_stop (s : Life) (b : Bool) (h : PoolFresh s) : PoolFresh (s.stop b).2 := by
  unfold Life.stop
  split
  · exact h
  · cases b with
    | false => exact h
    | true =>
      simp only [if_true, Life.closeAllConnection]
      cases s.withSignals with
      | true => cases s.sig <;> exact h
      | false =>
        cases hp : s.pool with
        | none => exact ⟨h.1, fun p hp' => (by simp at hp')⟩
        | some p =>
          obtain ⟨h1, h2⟩ := h.2 p hp
          constructor
          · intro q hq
            rcases List.mem_append.1 hq with hq | hq
            · exact Nat.lt_succ_of_lt (h.1 q hq)
            · rw [List.mem_singleton.1 hq]
              exact Nat.lt_succ_of_lt h1
          · intro q hq
            cases hq
            refine ⟨Nat.lt_succ_self _, fun hq => ?_⟩
            rcases List.mem_append.1 hq with hq | hq
            · exact Nat.lt_irrefl _ (h.1 _ hq)
            · have := List.mem_singleton.1 hq
              omega

theorem restart_go_state (s : Life) (cbs : List (Nat × Bool)) (ran : List Nat) : (Life.restart.go s cbs ran).2.2 = s := by
  induction cbs generalizing ran with
  | nil => rfl
  | cons c cs ih =>
    obtain ⟨f, p⟩ := c
    cases p with
    | true => rfl
    | false => exact ih _

theorem restart_state (s : Life) (b : Bool) (cbs : List (Nat × Bool)) : (s.restart b cbs).2.2 = (s.stop b).2 := by
  unfold Life.restart
  split
  all_goals next h => first | (rw [restart_go_state, h]) | (rw [h])

/-- After any history of configuration, listening calls, stops and restarts the pool in use is not one that a `Stop(true)` closes the
members of: clients of a later run are not closed by the shutdown of an earlier one.  For the same with broadcast signals, see
`C64_new_connection_violated`.
Missing: broadcast signals (`C64_new_connection_violated`). -/
theorem C64_pool_partial (ops : List LifeOp) (p : Nat) (hp : (ops.foldl LifeOp.apply {}).pool = some p) :
    p ∉ (ops.foldl LifeOp.apply {}).sweeps := by
  have key : ∀ s : Life, PoolFresh s → PoolFresh (ops.foldl LifeOp.apply s) := by
    clear hp
    induction ops with
    | nil => exact fun s h => h
    | cons op ops ih =>
      intro s h
      refine ih _ ?_
      cases op with
      | pool =>
        constructor
        · exact fun q hq => Nat.lt_succ_of_lt (h.1 q hq)
        · intro q hq
          cases hq
          exact ⟨Nat.lt_succ_self _, fun hq => Nat.lt_irrefl _ (h.1 _ hq)⟩
      | signals yes => exact h
      | listen n p l => exact h
      | stop b => exact poolFresh_stop s b h
      | restart b cbs =>
        rw [LifeOp.apply, restart_state]
        exact poolFresh_stop s b h
  exact ((key {} ⟨by simp, by simp⟩).2 p hp).2

example : let s := [LifeOp.pool, .listen "tcp" ":1" 1, .restart true [], .listen "tcp" ":1" 2].foldl LifeOp.apply {}
    s.pool = some 1 ∧ s.sweeps = [0] ∧ s.state = .running := by decide

/-! ## C64 -/

/-- C64 is violated: with broadcast signals, whatever happens after a first `Stop(true)` (listening again, other calls that do not
replace the channel), a later `Stop(true)` on the running server panics. -/
theorem C64_second_stop_violated (s t : Life) (hs : s.state = .running) (hw : s.withSignals = true) (ho : s.sig = .opened)
    (ht : t.state = .running) (htw : t.withSignals = (s.stop true).2.withSignals) (hts : t.sig = (s.stop true).2.sig) :
    (s.stop true).1 = .ok () ∧ (t.stop true).1 = .panic := by
  have h1 : (s.stop true).1 = .ok () ∧ (s.stop true).2.withSignals = true ∧ (s.stop true).2.sig = .closed := by
    simp [Life.stop, hs, Life.closeAllConnection, hw, ho]
  refine ⟨h1.1, ?_⟩
  rw [h1.2.1] at htw
  rw [h1.2.2] at hts
  simp [Life.stop, ht, Life.closeAllConnection, htw, hts]

example : let s := (({} : Life).withBroadCastSignal true).listen "tcp" ":1" 1
    (s.stop true).1 = .ok () ∧ (((s.stop true).2.listen "tcp" ":1" 2).stop true).1 = .panic := by decide

/-- The operations that close connections. -/
def Spec.LifeOp.closesAll : LifeOp → Bool
  | .stop b => b
  | .restart b _ => b
  | _ => false

/-- `Stop(false)` leaves the configuration alone. -/
theorem stop_false_config (s : Life) : (s.stop false).2.withSignals = s.withSignals ∧ (s.stop false).2.sig = s.sig := by
  unfold Life.stop
  split <;> exact ⟨rfl, rfl⟩

/-- The signal stays armed while nothing closes all connections and nobody turns it off. -/
theorem armed_apply (ops : List LifeOp) (h : ∀ op ∈ ops, op.closesAll = false) (ho : ∀ yes, .signals yes ∈ ops → yes = true) (s : Life)
    (h1 : s.withSignals = true) (h2 : s.sig = .opened) :
    (ops.foldl LifeOp.apply s).withSignals = true ∧ (ops.foldl LifeOp.apply s).sig = .opened := by
  induction ops generalizing s with
  | nil => exact ⟨h1, h2⟩
  | cons op ops ih =>
    have hop := h op List.mem_cons_self
    have key : (op.apply s).withSignals = true ∧ (op.apply s).sig = .opened := by
      cases op with
      | pool => exact ⟨h1, h2⟩
      | listen n p l => exact ⟨h1, h2⟩
      | signals yes => exact ⟨ho yes List.mem_cons_self, rfl⟩
      | stop b =>
        cases b with
        | true => cases hop
        | false => have := stop_false_config s; exact ⟨this.1.trans h1, this.2.trans h2⟩
      | restart b cbs =>
        cases b with
        | true => cases hop
        | false =>
          have := stop_false_config s
          simp only [LifeOp.apply, restart_state]
          exact ⟨this.1.trans h1, this.2.trans h2⟩
    exact ih (fun o ho' => h o (List.mem_cons_of_mem _ ho')) (fun y hy => ho y (List.mem_cons_of_mem _ hy)) _ key.1 key.2

/-- C64 (partial): if `WithBroadCastSignal(true)` was called, whatever happened before, and since then neither `Stop(true)` nor
`Restart(true)` (nor `WithBroadCastSignal(false)`), then the next `Stop(true)` on the running server succeeds and gives the signal;
so calling `WithBroadCastSignal(true)` again is a way to have a second shutdown.
Missing: a second `Stop(true)` without that (`C64_second_stop_violated`). -/
theorem C64_renewed_partial (pre post : List LifeOp) (h : ∀ op ∈ post, op.closesAll = false)
    (ho : ∀ yes, .signals yes ∈ post → yes = true)
    (hr : ((pre ++ .signals true :: post).foldl LifeOp.apply {}).state = .running) :
    let s := (pre ++ .signals true :: post).foldl LifeOp.apply {}
    (s.stop true).1 = .ok () ∧ s.sig = .opened ∧ (s.stop true).2.sig = .closed ∧ (s.stop true).2.sweeps = s.sweeps ∧
      (s.stop true).2.pool = s.pool := by
  intro s
  have hs : s = (LifeOp.signals true :: post).foldl LifeOp.apply (pre.foldl LifeOp.apply {}) := by
    simp only [s, List.foldl_append]
  have key := armed_apply post h ho ((pre.foldl LifeOp.apply {}).withBroadCastSignal true) rfl rfl
  have hs : s = post.foldl LifeOp.apply ((pre.foldl LifeOp.apply {}).withBroadCastSignal true) := hs
  rw [← hs] at key
  have hne : s.state ≠ .stopped := by rw [show s.state = .running from hr]; simp
  have e : s.stop true = (.ok (), { s with state := .stopped, closed := s.closed ++ (s.recs.filter Life.stopsListener).map (·.listener), sig := .closed }) := by
    unfold Life.stop
    rw [if_neg hne]
    simp only [if_true, Life.closeAllConnection, key.1, key.2]
  rw [e]
  exact ⟨rfl, key.2, rfl, rfl, rfl⟩

example : let pre := [LifeOp.signals true, .listen "tcp" ":1" 1, .stop true]
    let post := [LifeOp.listen "tcp" ":1" 2, .restart false [], .listen "tcp" ":1" 3]
    (∀ op ∈ post, op.closesAll = false) ∧ ((pre ++ .signals true :: post).foldl LifeOp.apply {}).state = .running ∧
    (((pre ++ .signals true :: post).foldl LifeOp.apply {}).stop true).1 = .ok () := by decide

/-! ## C65 -/

/-- The claim: every endpoint with a record is listened on by some goroutine. -/
def Spec.AllRestarted (recs : List LRec) (s : StartState) : Prop := ∀ r ∈ recs, ∃ i, (i, r.network, r.port) ∈ s.eps

/-- All goroutines have made their listening call. -/
def StartDone (recs : List LRec) (s : StartState) : Prop := ∀ i < recs.length, ∃ e ∈ s.eps, e.1 = i

/-- C65 holds for a server with one endpoint, in every schedule.
Missing: several endpoints (`C65_shared_variable_violated`). -/
theorem C65_one_endpoint_partial (r : LRec) (sched : List StartStep) (hd : StartDone [r] (runStart [r] sched)) :
    AllRestarted [r] (runStart [r] sched) := by
  have hinv : (∀ i n, (runStart [r] sched).nets.get? i = some n → i = 0 ∧ n = r.network) ∧
      (∀ e ∈ (runStart [r] sched).eps, e = (0, r.network, r.port)) ∧ (runStart [r] sched).iter ≤ 1 := by
    clear hd
    unfold runStart
    suffices H : ∀ s : StartState, (∀ i n, s.nets.get? i = some n → i = 0 ∧ n = r.network) ∧
        (∀ e ∈ s.eps, e = (0, r.network, r.port)) ∧ s.iter ≤ 1 →
        (∀ i n, (sched.foldl (startStep [r]) s).nets.get? i = some n → i = 0 ∧ n = r.network) ∧
        (∀ e ∈ (sched.foldl (startStep [r]) s).eps, e = (0, r.network, r.port)) ∧ (sched.foldl (startStep [r]) s).iter ≤ 1 by
      exact H {} ⟨by simp, by simp, by simp⟩
    induction sched with
    | nil => intro s h; exact h
    | cons a sched ih =>
      intro s ⟨h1, h2, h3⟩
      apply ih
      have hlv : ∀ v, loopVar [r] s.iter = some v → v = r ∧ s.iter = 1 := by
        intro v hv
        unfold loopVar at hv
        by_cases h0 : s.iter = 0
        · rw [if_pos h0] at hv; cases hv
        · have : s.iter = 1 := by omega
          rw [this] at hv
          simp at hv
          exact ⟨hv.symm, this⟩
      cases a with
      | loop =>
        simp only [startStep]
        split
        · rename_i h
          exact ⟨h1, h2, by simpa using h⟩
        · exact ⟨h1, h2, h3⟩
      | readNet i =>
        simp only [startStep]
        split
        · rename_i v hv
          obtain ⟨rfl, hi⟩ := hlv v hv
          split
          · rename_i hc
            refine ⟨?_, h2, h3⟩
            intro j n hj
            simp only [GoMap.get?_set] at hj
            split at hj
            · rename_i hji
              cases hj
              exact ⟨by omega, rfl⟩
            · exact h1 j n hj
          · exact ⟨h1, h2, h3⟩
        · exact ⟨h1, h2, h3⟩
      | readPort i =>
        simp only [startStep]
        split
        · rename_i v n hv hn
          obtain ⟨rfl, _⟩ := hlv v hv
          obtain ⟨rfl, rfl⟩ := h1 i n hn
          split
          · refine ⟨h1, ?_, h3⟩
            intro e he
            rcases List.mem_append.1 he with he | he
            · exact h2 e he
            · simpa using he
          · exact ⟨h1, h2, h3⟩
        · exact ⟨h1, h2, h3⟩
  intro r' hr'
  simp only [List.mem_singleton] at hr'
  subst hr'
  obtain ⟨e, he, _⟩ := hd 0 (by simp)
  exact ⟨0, by rw [← hinv.2.1 e he]; exact he⟩

example : (runStart [⟨"tcp", ":1", 4⟩] [.loop, .readNet 0, .readPort 0]).eps = [(0, "tcp", ":1")] := by decide

/-- The listening calls of a history. -/
def Spec.listensOf : List LifeOp → Listens
  | [] => []
  | .listen n p l :: ops => (n, p, l) :: listensOf ops
  | _ :: ops => listensOf ops

theorem stop_recs (s : Life) (b : Bool) : (s.stop b).2.recs = s.recs := by
  unfold Life.stop
  split
  · rfl
  · cases b with
    | false => rfl
    | true =>
      simp only [if_true, Life.closeAllConnection]
      split
      · split <;> rfl
      · split <;> rfl

/-- The records depend on the listening calls only. -/
theorem recs_apply (ops : List LifeOp) (s : Life) :
    (ops.foldl LifeOp.apply s).recs = (listensOf ops).foldl (fun rs x => fillProperty x.1 x.2.1 x.2.2 rs) s.recs := by
  induction ops generalizing s with
  | nil => rfl
  | cons op ops ih =>
    rw [List.foldl_cons, ih]
    cases op with
    | pool => rfl
    | signals yes => rfl
    | listen n p l => rfl
    | stop b => simp only [LifeOp.apply, stop_recs, listensOf]
    | restart b cbs => simp only [LifeOp.apply, restart_state, stop_recs, listensOf]

/-- C65 (partial): `Start` on a stopped server starts exactly as many listening calls as the server has had different endpoints, after
any history.
Missing: which endpoints they listen on (`C65_one_endpoint_partial`, `C65_shared_variable_violated`). -/
theorem C65_count_partial (ops : List LifeOp) (hr : (ops.foldl LifeOp.apply {}).state = .stopped) :
    (ops.foldl LifeOp.apply {}).start = .ok (endpointsInOrder ((listensOf ops).map fun x => (x.1, x.2.1))).length := by
  have hrec := recs_apply ops {}
  have := (C67_records (listensOf ops)).1
  rw [Life.start, if_neg (by rw [hr]; simp), hrec, ← this, List.length_map]
  rfl

theorem restart_go_ok (s : Life) (cbs : List (Nat × Bool)) (h : ∀ c ∈ cbs, c.2 = false) (ran : List Nat) :
    Life.restart.go s cbs ran = (s.start, ran ++ cbs.map (·.1), s) := by
  induction cbs generalizing ran with
  | nil => simp [Life.restart.go]
  | cons c cs ih =>
    obtain ⟨f, p⟩ := c
    have hp : p = false := h _ List.mem_cons_self
    subst hp
    simp only [Life.restart.go, Bool.false_eq_true, if_false]
    rw [ih (fun c hc => h c (List.mem_cons_of_mem _ hc))]
    simp

theorem restart_go_panic (s : Life) (pre post : List (Nat × Bool)) (f : Nat) (h : ∀ c ∈ pre, c.2 = false) (ran : List Nat) :
    Life.restart.go s (pre ++ (f, true) :: post) ran = (.panic, ran ++ pre.map (·.1) ++ [f], s) := by
  induction pre generalizing ran with
  | nil => simp [Life.restart.go]
  | cons c cs ih =>
    obtain ⟨g, p⟩ := c
    have hp : p = false := h _ List.mem_cons_self
    subst hp
    simp only [List.cons_append, Life.restart.go, Bool.false_eq_true, if_false]
    rw [ih (fun c hc => h c (List.mem_cons_of_mem _ hc))]
    simp

/-- C65 (partial): `Restart` on a running server whose `Stop` succeeds runs every callback once, in the order given, with the server
stopped, and then starts as many listening calls as the server has had different endpoints.  If a callback panics, so does `Restart`: the
callbacks after it are not run, and the server remains stopped.
Missing: which endpoints they listen on. -/
theorem C65_restart_partial (ops : List LifeOp) (b : Bool) (hr : (ops.foldl LifeOp.apply {}).state = .running)
    (hs : ((ops.foldl LifeOp.apply {}).stop b).1 = .ok ()) :
    (∀ cbs, (∀ c ∈ cbs, c.2 = false) → (ops.foldl LifeOp.apply {}).restart b cbs =
      (.ok (endpointsInOrder ((listensOf ops).map fun x => (x.1, x.2.1))).length, cbs.map (·.1),
        ((ops.foldl LifeOp.apply {}).stop b).2)) ∧
    (∀ pre f post, (∀ c ∈ pre, c.2 = false) → (ops.foldl LifeOp.apply {}).restart b (pre ++ (f, true) :: post) =
      (.panic, pre.map (·.1) ++ [f], ((ops.foldl LifeOp.apply {}).stop b).2)) ∧
    ((ops.foldl LifeOp.apply {}).stop b).2.state = .stopped := by
  have hst : ((ops.foldl LifeOp.apply {}).stop b).2.state = .stopped := (C60_stop_partial _ b hr).1
  have hsplit : (ops.foldl LifeOp.apply {}).stop b = (.ok (), ((ops.foldl LifeOp.apply {}).stop b).2) := by rw [← hs]
  refine ⟨fun cbs hc => ?_, fun pre f post hc => ?_, hst⟩
  · unfold Life.restart
    rw [hsplit]
    simp only []
    rw [restart_go_ok _ _ hc]
    have := C65_count_partial (ops ++ [.stop b]) (by rw [List.foldl_append]; exact hst)
    rw [List.foldl_append] at this
    have hl : listensOf (ops ++ [.stop b]) = listensOf ops := by
      clear hr hs hst hsplit this
      induction ops with
      | nil => rfl
      | cons op ops ih => cases op <;> simp_all [listensOf]
    rw [hl] at this
    simp only [List.foldl_cons, List.foldl_nil, LifeOp.apply] at this
    rw [this]
    rfl
  · unfold Life.restart
    rw [hsplit]
    simp only []
    rw [restart_go_panic _ _ _ _ hc]
    rfl

example : let ops := [LifeOp.pool, .listen "tcp" ":1" 1, .listen "udp" ":1" 2, .listen "tcp" ":1" 3]
    let s := ops.foldl LifeOp.apply {}
    s.state = .running ∧ (s.stop true).1 = .ok () ∧ (s.restart true [(7, false), (8, false)]).1 = .ok 2 ∧
    (s.restart true [(7, false), (8, true), (9, false)]).2.1 = [7, 8] := by decide

/-- The schedule in which the loop finishes first. -/
def loopFirst (n : Nat) : List StartStep := List.replicate n .loop ++ (List.range n).flatMap (fun i => [.readNet i, .readPort i])

theorem loops_run (recs : List LRec) (k : Nat) (hk : k ≤ recs.length) :
    (List.replicate k StartStep.loop).foldl (startStep recs) {} = { iter := k } := by
  induction k with
  | zero => rfl
  | succ k ih =>
    rw [List.replicate_succ', List.foldl_append, ih (by omega)]
    simp only [List.foldl_cons, List.foldl_nil, startStep]
    rw [if_pos (by omega)]

theorem reads_run (recs : List LRec) (last : LRec) (hlast : loopVar recs recs.length = some last) (k : Nat) (hk : k ≤ recs.length) :
    let s := ((List.range k).flatMap (fun i => [StartStep.readNet i, StartStep.readPort i])).foldl (startStep recs) { iter := recs.length }
    s.iter = recs.length ∧ (∀ i, k ≤ i → s.nets.get? i = none) ∧ s.eps = (List.range k).map (fun i => (i, last.network, last.port)) := by
  induction k with
  | zero => exact ⟨rfl, fun _ _ => rfl, rfl⟩
  | succ k ih =>
    have ih := ih (by omega)
    simp only at ih ⊢
    rw [List.range_succ, List.flatMap_append, List.foldl_append]
    generalize ((List.range k).flatMap (fun i => [StartStep.readNet i, StartStep.readPort i])).foldl (startStep recs)
      { iter := recs.length } = s at ih
    obtain ⟨h1, h2, h3⟩ := ih
    simp only [List.flatMap_cons, List.flatMap_nil, List.append_nil, List.foldl_cons, List.foldl_nil]
    have hs1 : startStep recs s (.readNet k) = { s with nets := s.nets.set k last.network } := by
      simp only [startStep, h1, hlast]
      rw [if_pos ⟨by omega, h2 k (Nat.le_refl k)⟩]
    have hfree : ∀ e ∈ s.eps, e.1 ≠ k := by
      rw [h3]
      intro e he
      obtain ⟨i, hi, rfl⟩ := List.mem_map.1 he
      have := List.mem_range.1 hi
      simp only; omega
    have hs2 : startStep recs { s with nets := s.nets.set k last.network } (.readPort k) =
        { s with nets := s.nets.set k last.network, eps := s.eps ++ [(k, last.network, last.port)] } := by
      simp only [startStep, h1, hlast, GoMap.get?_set_self]
      rw [if_pos hfree]
    rw [hs1, hs2]
    refine ⟨h1, ?_, ?_⟩
    · intro i hi
      simp only [GoMap.get?_set]
      rw [if_neg (by omega)]
      exact h2 i (by omega)
    · simp [h3, List.map_append]

/-- C65 is violated for every server with two or more endpoints: in the schedule where the loop of `Start` finishes before its
goroutines run, every goroutine listens on the last endpoint and no other endpoint is listened on. -/
theorem C65_shared_variable_violated (recs : List LRec) (last : LRec) (hlast : recs.getLast? = some last) :
    let s := runStart recs (loopFirst recs.length)
    StartDone recs s ∧ (∀ e ∈ s.eps, e.2 = (last.network, last.port)) ∧
      ((∃ r ∈ recs, r.endpoint ≠ last.endpoint) → ¬ AllRestarted recs s) := by
  have hpos : 0 < recs.length := by
    cases recs with
    | nil => cases hlast
    | cons r rs => simp
  have hlv : loopVar recs recs.length = some last := by
    unfold loopVar
    rw [if_neg (by omega), ← List.getLast?_eq_getElem?, hlast]
  have hr : runStart recs (loopFirst recs.length) =
      ((List.range recs.length).flatMap (fun i => [StartStep.readNet i, StartStep.readPort i])).foldl (startStep recs)
        { iter := recs.length } := by
    unfold runStart loopFirst
    rw [List.foldl_append, loops_run recs recs.length (Nat.le_refl _)]
  have := reads_run recs last hlv recs.length (Nat.le_refl _)
  simp only at this ⊢
  rw [hr]
  generalize ((List.range recs.length).flatMap (fun i => [StartStep.readNet i, StartStep.readPort i])).foldl (startStep recs)
    { iter := recs.length } = s at this
  obtain ⟨_, _, h3⟩ := this
  have hall : ∀ e ∈ s.eps, e.2 = (last.network, last.port) := by
    rw [h3]
    intro e he
    obtain ⟨i, _, rfl⟩ := List.mem_map.1 he
    rfl
  refine ⟨?_, hall, ?_⟩
  · intro i hi
    refine ⟨(i, last.network, last.port), ?_, rfl⟩
    rw [h3]
    exact List.mem_map.2 ⟨i, List.mem_range.2 hi, rfl⟩
  · rintro ⟨r, hr, hne⟩ hrest
    obtain ⟨i, hi⟩ := hrest r hr
    exact hne (hall _ hi)

example : (runStart [⟨"tcp", ":1", 4⟩, ⟨"tcp", ":2", 5⟩] (loopFirst 2)).eps = [(0, "tcp", ":2"), (1, "tcp", ":2")] := by decide

/-! ## C73 -/

/-- Neither an accept error nor a panic of `OnConnect`. -/
def Spec.Smooth (hasOnConnect : Bool) (script : List (Bool × AcceptEv)) : Prop :=
  ∀ x ∈ script, x.2 ≠ .error ∧ ¬ (hasOnConnect = true ∧ x.2 = .conn true)

/-- C73: while nothing fails the loop serves every connection and ends only because the server was stopped.
Missing: what the property is about, `C73_loop_dies_violated`. -/
theorem C73_smooth_partial (hasOnConnect : Bool) (script : List (Bool × AcceptEv)) (hs : Smooth hasOnConnect script) :
    acceptLoop hasOnConnect script =
      ((script.takeWhile (fun x => !x.1)).length, if script.any (·.1) then .stopped else .waiting) := by
  induction script with
  | nil => rfl
  | cons x rest ih =>
    have ih := ih (fun y hy => hs y (List.mem_cons_of_mem _ hy))
    have hx := hs x List.mem_cons_self
    obtain ⟨b, ev⟩ := x
    cases b with
    | true => rfl
    | false =>
      cases ev with
      | error => exact absurd rfl hx.1
      | conn p =>
        have : (hasOnConnect && p) = false := by
          cases hasOnConnect <;> cases p <;> simp_all
        simp only [acceptLoop, this, ih]
        simp
        rfl

/-- C73 is violated: at the first accept error, and at the first panic of `OnConnect`, the loop ends for good; its listener is closed
while the state still says running, so `Start` refuses to restart it. -/
theorem C73_loop_dies_violated (s : Life) (l : Nat) (hs : s.state = .running) (hasOnConnect : Bool) (pre post : List (Bool × AcceptEv))
    (ev : AcceptEv) (hpre : Smooth hasOnConnect pre) (hrun : ∀ x ∈ pre, x.1 = false)
    (hev : ev = .error ∨ (hasOnConnect = true ∧ ev = .conn true)) :
    (acceptLoop hasOnConnect (pre ++ (false, ev) :: post)).1 = pre.length ∧
    ∃ e, (acceptLoop hasOnConnect (pre ++ (false, ev) :: post)).2 = e ∧ e ≠ .waiting ∧ e ≠ .stopped ∧
      l ∈ (s.loopEnded l e).closed ∧ (s.loopEnded l e).state = .running ∧ ∃ err, (s.loopEnded l e).start = .err err := by
  have hfin : ∀ e, e ≠ AcceptEnd.waiting → l ∈ (s.loopEnded l e).closed ∧ (s.loopEnded l e).state = .running ∧
      ∃ err, (s.loopEnded l e).start = .err err := by
    intro e he
    have : (s.loopEnded l e) = { s with closed := s.closed ++ [l] } := by rw [Life.loopEnded, if_neg he]
    rw [this]
    exact ⟨by simp, hs, _, by rw [Life.start, if_pos hs]⟩
  have hloop : ∃ e, acceptLoop hasOnConnect (pre ++ (false, ev) :: post) = (pre.length, e) ∧ e ≠ .waiting ∧ e ≠ .stopped := by
    induction pre with
    | nil =>
      rcases hev with rfl | ⟨rfl, rfl⟩
      · exact ⟨_, rfl, by simp, by simp⟩
      · exact ⟨_, rfl, by simp, by simp⟩
    | cons x pre ih =>
      obtain ⟨e, h1, h2, h3⟩ := ih (fun y hy => hpre y (List.mem_cons_of_mem _ hy)) (fun y hy => hrun y (List.mem_cons_of_mem _ hy))
      have hx := hpre x List.mem_cons_self
      have hb := hrun x List.mem_cons_self
      obtain ⟨b, ev'⟩ := x
      simp only at hb
      subst hb
      cases ev' with
      | error => exact absurd rfl hx.1
      | conn p =>
        have : (hasOnConnect && p) = false := by
          cases hasOnConnect <;> cases p <;> simp_all
        refine ⟨e, ?_, h2, h3⟩
        simp only [List.cons_append, acceptLoop, this, h1]
        simp
  obtain ⟨e, h1, h2, h3⟩ := hloop
  rw [h1]
  exact ⟨rfl, e, rfl, h2, h3, hfin e h2⟩

example : acceptLoop true [(false, .conn false), (false, .conn false), (false, .error), (false, .conn false)] = (2, .acceptError) := by
  decide

end Tcpx
