import Verif.Lemmas.ConnRun
import Verif.Props.Connection
/-!
# C103, C104: the goroutines of a connection

`CRSteps len (crInit (connGoroutine …)) st` ranges over all executions of a connection and the goroutines started for its messages; `st.log`
is what has happened, in order.
-/
namespace Tcpx
open Chain

/-! ## C103 -/

/-- C103 (for the messages of one piped group): when a handler does anything for a message, every handler called for an earlier
message of its group has returned.
Missing: separate messages (`C103_overtaken_violated`). -/
theorem C103_group_partial (len : Bytes → Option Nat) (g : ConnRun) (s : CRState) (h : CRSteps len (crInit g) s)
    (l1 l3 : List CREv) (k m : Nat) (e : CEv) (he : s.log = l1 ++ .task k m e :: l3) (m' j : Nat) (hm : m' < m)
    (hs : .task k m' (.start j) ∈ l1) : .task k m' (.finish j) ∈ l1 := by
  have iv := crInv_steps h
  have mem : ∀ (x : Nat × CEv), x ∈ Spec.taskPart k l1 ↔ CREv.task k x.1 x.2 ∈ l1 := by
    intro x
    simp only [Spec.taskPart, List.mem_filterMap]
    constructor
    · rintro ⟨a, ha, hx⟩
      cases a with
      | conn e => cases hx
      | crash => cases hx
      | task k' m e =>
        simp only at hx
        by_cases hk : k' = k
        · subst hk
          simp only [if_true, Option.some.injEq] at hx
          subst hx
          exact ha
        · simp [hk] at hx
    · intro hx
      exact ⟨_, hx, by simp⟩
  have hk : k < s.tasks.length := by
    by_cases hk : k < s.tasks.length
    · exact hk
    · have := iv.none k (by omega)
      rw [he] at this
      simp [Spec.taskPart] at this
  obtain ⟨t, ht⟩ : ∃ t, s.tasks[k]? = some t := ⟨_, List.getElem?_eq_getElem hk⟩
  obtain ⟨n, todo, hr⟩ := iv.runs k t ht
  have hsplit : Spec.taskPart k s.log = Spec.taskPart k l1 ++ (m, e) :: Spec.taskPart k l3 := by
    rw [he]; simp [Spec.taskPart]
  exact (mem (m', .finish j)).1 (C21_one_after_another n todo _ _ hr _ _ (m, e) hsplit m' j hm ((mem (m', .start j)).2 hs))

/-- C103 (what holds for all messages): a goroutine handles messages only after the connection has started it, i.e. after their last byte
has arrived. -/
theorem C103_after_arrival (len : Bytes → Option Nat) (g : ConnRun) (s : CRState) (h : CRSteps len (crInit g) s)
    (l1 l3 : List CREv) (k m : Nat) (e : CEv) (he : s.log = l1 ++ .task k m e :: l3) :
    Spec.connPart l1 <+: g.trace ∧ ∃ t, (Spec.started (Spec.connPart l1))[k]? = some t := by
  have iv := crInv_steps h
  refine ⟨?_, ⟨_, List.getElem?_eq_getElem (iv.caused l1 k m e l3 he)⟩⟩
  have h1 : Spec.connPart l1 <+: Spec.connPart s.log := by
    rw [he, connPart_append]; exact List.prefix_append _ _
  have h2 : Spec.connPart s.log <+: g.trace := by rw [← iv.conn]; exact List.prefix_append _ _
  exact h1.trans h2

/-- C103 fails between separate messages: whatever messages arrive, a later one may be handled before an earlier one, since each has its own
goroutine (tcpx.go:600, 602). -/
theorem C103_overtaken_violated (len : Bytes → Option Nat) (g : ConnRun) (k k' n n' : Nat) (hkk : k < k') (b b' : Bytes)
    (hk : (Spec.started g.trace)[k]? = some (.single b)) (hk' : (Spec.started g.trace)[k']? = some (.single b'))
    (hn : len b = some (n + 1)) (hn' : len b' = some (n' + 1)) :
    ∃ s, CRSteps len (crInit g) s ∧ s.log = g.trace.map .conn ++ [.task k' 0 (.start 0), .task k 0 (.start 0)] := by
  have h1 := conn_first len g.trace (crInit g) rfl [] (by simp [crInit])
  have e1 : startTask len (.single b) = { p := pinit (n + 1) [], bad := false } := by simp [startTask, Task.contexts, chainLens, hn]
  have e2 : startTask len (.single b') = { p := pinit (n' + 1) [], bad := false } := by simp [startTask, Task.contexts, chainLens, hn']
  obtain ⟨t', h2⟩ := start_task len { todo := [], tasks := (Spec.started g.trace).map (startTask len), log := g.trace.map .conn } rfl k' n'
    (startTask len (.single b')) [] (by simp [hk']) (by rw [e2])
  obtain ⟨t, h3⟩ := start_task len
    { todo := [], tasks := ((Spec.started g.trace).map (startTask len)).set k' t', log := g.trace.map .conn ++ [.task k' 0 (.start 0)] } rfl k n
    (startTask len (.single b)) [] (by rw [List.getElem?_set_ne (by omega)]; simp [hk]) (by rw [e1])
  have h1' : CRSteps len (crInit g) { todo := [], tasks := (Spec.started g.trace).map (startTask len), log := g.trace.map .conn } := by
    simpa [crInit] using h1
  exact ⟨_, .tail (.tail h1' h2) h3, by simp⟩

/-- Two messages for a server with chains of one handler. -/
def twoMessages : ConnRun := connGoroutine tinyJson 0 true false [.chunk (plainFrame 1 7), .chunk (plainFrame 1 8), .eof]

theorem twoMessages_trace : twoMessages.trace = [.go (.single (plainFrame 1 7)), .go (.single (plainFrame 1 8)), .onClose, .closeConn] := by
  have h3 : connLoop tinyJson 0 [.eof] = ([], .ended) := connLoop_err (e := .eof) (r' := [.eof]) rfl
  have h2 : connLoop tinyJson 0 [.chunk (plainFrame 1 8), .eof] = ([.single (plainFrame 1 8)], .ended) := by
    rw [connLoop_ok (b := plainFrame 1 8) (r' := [.eof]) rfl, h3]; rfl
  have h1 : connLoop tinyJson 0 [.chunk (plainFrame 1 7), .chunk (plainFrame 1 8), .eof] =
      ([.single (plainFrame 1 7), .single (plainFrame 1 8)], .ended) := by
    rw [connLoop_ok (b := plainFrame 1 7) (r' := [.chunk (plainFrame 1 8), .eof]) rfl, h2]; rfl
  simp [twoMessages, connGoroutine, h1, runDeferred, deferOrder]

example := C103_overtaken_violated (fun _ => some 1) twoMessages 0 1 0 0 (by decide) (plainFrame 1 7) (plainFrame 1 8)
  (by rw [twoMessages_trace]; rfl) (by rw [twoMessages_trace]; rfl) rfl rfl

/-! ## C104 -/

/-- C104 (what holds): after `OnClose` no further goroutine is started for messages; what the connection goroutine does is always a beginning of
what C55 says.
Missing: that those started before have finished (`C104_late_violated`). -/
theorem C104_no_new_partial (len : Bytes → Option Nat) (json : JSONCodec) (max : Int32) (hasOnClose onClosePanics : Bool) (r : Reader)
    (s : CRState) (h : CRSteps len (crInit (connGoroutine json max hasOnClose onClosePanics r)) s) (l1 l3 : List CREv)
    (he : s.log = l1 ++ .conn .onClose :: l3) : ∀ t, .conn (.go t) ∉ l3 := by
  intro t ht
  have iv := crInv_steps h
  obtain ⟨_, h1, h2⟩ := C55_close_sequence json max hasOnClose onClosePanics r
  have hc := iv.conn
  rw [he] at hc
  simp only [connPart_append] at hc
  have hmem : ConnEv.go t ∈ Spec.connPart l3 := by
    simp only [Spec.connPart, List.mem_filterMap]
    exact ⟨_, ht, rfl⟩
  have hc' : Spec.connPart l1 ++ ConnEv.onClose :: (Spec.connPart l3 ++ s.todo) = (connGoroutine json max hasOnClose onClosePanics r).trace := by
    rw [← hc]; simp [Spec.connPart]
  cases hf : (connGoroutine json max hasOnClose onClosePanics r).finished with
  | false =>
    obtain ⟨_, h3⟩ := h2 hf
    obtain ⟨t', h4⟩ := h3 .onClose (by rw [← hc']; simp)
    cases h4
  | true =>
    obtain ⟨ts, h3⟩ := h1 hf
    rw [h3] at hc'
    -- behind an `onClose` of the trace there is no `go`
    have key : ∀ (ts : List Task) (a b tail : List ConnEv), (∀ t, ConnEv.go t ∉ tail) →
        a ++ ConnEv.onClose :: b = ts.map ConnEv.go ++ tail → ∀ t, ConnEv.go t ∉ b := by
      intro ts
      induction ts with
      | nil =>
        intro a b tail hn heq t hb
        apply hn t
        rw [List.map_nil, List.nil_append] at heq
        rw [← heq]
        simp [hb]
      | cons u ts ih =>
        intro a b tail hn heq
        cases a with
        | nil => simp at heq
        | cons x a =>
          simp only [List.map_cons, List.cons_append, List.cons.injEq] at heq
          exact ih a b tail hn heq.2
    rw [List.append_assoc] at hc'
    refine key ts _ _ _ ?_ hc' t (List.mem_append_left _ hmem)
    intro t' ht'
    cases hasOnClose <;> simp at ht'

/-- C104 fails: whatever messages arrive before the end of a connection, any of them may be handled only after `OnClose` has run and the
connection has been closed (the goroutines are not waited for, tcpx.go:552-605). -/
theorem C104_late_violated (len : Bytes → Option Nat) (g : ConnRun) (k n : Nat) (b : Bytes)
    (hk : (Spec.started g.trace)[k]? = some (.single b)) (hn : len b = some (n + 1)) :
    ∃ s, CRSteps len (crInit g) s ∧ s.log = g.trace.map .conn ++ [.task k 0 (.start 0)] := by
  have h1 := conn_first len g.trace (crInit g) rfl [] (by simp [crInit])
  have e1 : startTask len (.single b) = { p := pinit (n + 1) [], bad := false } := by simp [startTask, Task.contexts, chainLens, hn]
  obtain ⟨t', h2⟩ := start_task len { todo := [], tasks := (Spec.started g.trace).map (startTask len), log := g.trace.map .conn } rfl k n
    (startTask len (.single b)) [] (by simp [hk]) (by rw [e1])
  have h1' : CRSteps len (crInit g) { todo := [], tasks := (Spec.started g.trace).map (startTask len), log := g.trace.map .conn } := by
    simpa [crInit] using h1
  exact ⟨_, .tail h1' h2, rfl⟩

example := C104_late_violated (fun _ => some 1) twoMessages 1 0 (plainFrame 1 8) (by rw [twoMessages_trace]; rfl) rfl

end Tcpx
