import Verif.Spec.ConnRun
import Verif.Props.ChainTrace
/-! # Lemmas on connections with the goroutines they start -/
namespace Tcpx
open Chain

theorem taskPart_append (k : Nat) (l r : List CREv) : Spec.taskPart k (l ++ r) = Spec.taskPart k l ++ Spec.taskPart k r :=
  List.filterMap_append
theorem connPart_append (l r : List CREv) : Spec.connPart (l ++ r) = Spec.connPart l ++ Spec.connPart r := List.filterMap_append
theorem started_append (l r : List ConnEv) : Spec.started (l ++ r) = Spec.started l ++ Spec.started r := List.filterMap_append

theorem taskPart_conn (k : Nat) (e : ConnEv) : Spec.taskPart k [.conn e] = [] := rfl
theorem taskPart_crash (k : Nat) : Spec.taskPart k [.crash] = [] := rfl
theorem taskPart_task (k k' m : Nat) (es : List CEv) :
    Spec.taskPart k (es.map (fun e => CREv.task k' m e)) = if k' = k then es.map (fun e => (m, e)) else [] := by
  induction es with
  | nil => simp [Spec.taskPart]
  | cons e es ih =>
    simp only [Spec.taskPart, List.map_cons, List.filterMap_cons] at ih ⊢
    by_cases h : k' = k
    · subst h; simp only [if_true] at ih ⊢; rw [ih]
    · simp only [h, if_false] at ih ⊢; exact ih
theorem connPart_task (k m : Nat) (es : List CEv) : Spec.connPart (es.map (fun e => CREv.task k m e)) = [] := by
  induction es with
  | nil => rfl
  | cons e es ih => exact ih

structure CRInv (len : Bytes → Option Nat) (trace : List ConnEv) (s : CRState) : Prop where
  conn : Spec.connPart s.log ++ s.todo = trace
  count : s.tasks.length = (Spec.started (Spec.connPart s.log)).length
  runs : ∀ k t, s.tasks[k]? = some t → ∃ n todo, PRuns (pinit n todo) (Spec.taskPart k s.log) t.p
  none : ∀ k, s.tasks.length ≤ k → Spec.taskPart k s.log = []
  caused : ∀ l1 k m e l3, s.log = l1 ++ .task k m e :: l3 → k < (Spec.started (Spec.connPart l1)).length

theorem crInv_init (len : Bytes → Option Nat) (g : ConnRun) : CRInv len g.trace (crInit g) where
  conn := rfl
  count := rfl
  runs := by intro k t h; simp [crInit] at h
  none := by intro k _; rfl
  caused := by intro l1 k m e l3 h; simp [crInit] at h

theorem split_one {α : Type} {l l1 l3 : List α} {x e : α} (h : l ++ [x] = l1 ++ e :: l3) :
    (∃ l3', l = l1 ++ e :: l3') ∨ (l1 = l ∧ e = x) := by
  rcases split_app (by simp) h with h | ⟨h1, h2⟩
  · exact Or.inl h
  · exact Or.inr ⟨h1, by simpa using h2⟩

theorem crInv_step {len : Bytes → Option Nat} {trace : List ConnEv} {a b : CRState} (iv : CRInv len trace a) (h : CRStep len a b) :
    CRInv len trace b := by
  cases h with
  | go t rest ht hd =>
    refine ⟨?_, ?_, ?_, ?_, ?_⟩
    · have := iv.conn
      rw [ht] at this
      simp only [connPart_append]
      rw [← this]
      simp [Spec.connPart]
    · simp only [connPart_append, started_append, List.length_append, iv.count]
      rfl
    · intro k t' hk
      simp only [taskPart_append, taskPart_conn, List.append_nil]
      by_cases hlt : k < a.tasks.length
      · rw [List.getElem?_append_left hlt] at hk
        exact iv.runs k t' hk
      · rw [List.getElem?_append_right (by omega)] at hk
        by_cases hz : k - a.tasks.length = 0
        · rw [hz] at hk
          simp only [List.getElem?_cons_zero, Option.some.injEq] at hk
          rw [iv.none k (by omega)]
          have hp : ∃ n ns, t'.p = pinit n ns := by
            rw [← hk]
            unfold startTask
            simp only
            split
            · exact ⟨_, _, rfl⟩
            · exact ⟨_, _, rfl⟩
          obtain ⟨n, ns, hp⟩ := hp
          exact ⟨n, ns, by rw [hp]; exact .refl _⟩
        · rw [List.getElem?_eq_none (by simp; omega)] at hk
          cases hk
    · intro k hk
      simp only [taskPart_append, taskPart_conn, List.append_nil]
      simp only [List.length_append, List.length_singleton] at hk
      exact iv.none k (by omega)
    · intro l1 k m e l3 heq
      rcases split_one heq with ⟨l3', h⟩ | ⟨_, h⟩
      · exact iv.caused l1 k m e l3' h
      · cases h
  | conn e rest ht he hd =>
    refine ⟨?_, ?_, ?_, ?_, ?_⟩
    · have := iv.conn
      rw [ht] at this
      simp only [connPart_append]
      rw [← this]
      simp [Spec.connPart]
    · simp only [connPart_append, started_append, List.length_append]
      rw [iv.count]
      rcases he with rfl | rfl <;> rfl
    · intro k t' hk
      simp only [taskPart_append, taskPart_conn, List.append_nil]
      exact iv.runs k t' hk
    · intro k hk
      simp only [taskPart_append, taskPart_conn, List.append_nil]
      exact iv.none k hk
    · intro l1 k m e' l3 heq
      rcases split_one heq with ⟨l3', h⟩ | ⟨_, h⟩
      · exact iv.caused l1 k m e' l3' h
      · cases h
  | task k t c hk hs hd =>
    have hlt : k < a.tasks.length := (List.getElem?_eq_some_iff.1 hk).1
    refine ⟨?_, ?_, ?_, ?_, ?_⟩
    · simp only [connPart_append, connPart_task, List.append_nil]; exact iv.conn
    · simp only [connPart_append, connPart_task, List.append_nil, List.length_set]; exact iv.count
    · intro k' t' hk'
      simp only [taskPart_append, taskPart_task]
      by_cases h : k = k'
      · subst h
        simp only [List.getElem?_set_self hlt, Option.some.injEq] at hk'
        subst hk'
        obtain ⟨n, todo, hr⟩ := iv.runs k t hk
        exact ⟨n, todo, by simp only [if_true]; exact .inner hr hs⟩
      · simp only [List.getElem?_set_ne h] at hk'
        obtain ⟨n, todo, hr⟩ := iv.runs k' t' hk'
        exact ⟨n, todo, by simp only [h, if_false, List.append_nil]; exact hr⟩
    · intro k' hk'
      simp only [List.length_set] at hk'
      simp only [taskPart_append, taskPart_task]
      rw [if_neg (by omega), List.append_nil]
      exact iv.none k' hk'
    · intro l1 k' m e l3 heq
      rcases split_app (by rw [List.length_map]; exact evOf_length _ _) heq with ⟨l3', h⟩ | ⟨h, he⟩
      · exact iv.caused l1 k' m e l3' h
      · subst h
        obtain ⟨e', _, h⟩ := List.mem_map.1 he
        simp only [CREv.task.injEq] at h
        obtain ⟨rfl, _, _⟩ := h
        rw [← iv.count]
        exact hlt
  | advance k t q hk hs hi hd =>
    have hlt : k < a.tasks.length := (List.getElem?_eq_some_iff.1 hk).1
    refine ⟨iv.conn, ?_, ?_, ?_, iv.caused⟩
    · simp only [List.length_set]; exact iv.count
    · intro k' t' hk'
      by_cases h : k = k'
      · subst h
        simp only [List.getElem?_set_self hlt, Option.some.injEq] at hk'
        subst hk'
        obtain ⟨n, todo, hr⟩ := iv.runs k t hk
        exact ⟨n, todo, .advance hr hs hi⟩
      · simp only [List.getElem?_set_ne h] at hk'
        exact iv.runs k' t' hk'
    · intro k' hk'
      simp only [List.length_set] at hk'
      exact iv.none k' hk'
  | nilCtx k t hk hb ht hs hd =>
    refine ⟨?_, ?_, ?_, ?_, ?_⟩
    · simp only [connPart_append]; rw [← iv.conn]; simp [Spec.connPart]
    · simp only [connPart_append]; rw [iv.count]; simp [Spec.connPart]
    · intro k' t' hk'
      simp only [taskPart_append, taskPart_crash, List.append_nil]
      exact iv.runs k' t' hk'
    · intro k' hk'
      simp only [taskPart_append, taskPart_crash, List.append_nil]
      exact iv.none k' hk'
    · intro l1 k' m e l3 heq
      rcases split_one heq with ⟨l3', h⟩ | ⟨_, h⟩
      · exact iv.caused l1 k' m e l3' h
      · cases h

theorem crInv_steps {len : Bytes → Option Nat} {g : ConnRun} {s : CRState} (h : CRSteps len (crInit g) s) : CRInv len g.trace s := by
  induction h with
  | refl => exact crInv_init len g
  | tail _ hs ih => exact crInv_step ih hs

/-- All actions of the connection goroutine, before any message is handled. -/
theorem conn_first (len : Bytes → Option Nat) (evs : List ConnEv) (s : CRState) (hd : s.dead = false) (rest : List ConnEv)
    (ht : s.todo = evs ++ rest) :
    CRSteps len s { s with todo := rest, tasks := s.tasks ++ (Spec.started evs).map (startTask len), log := s.log ++ evs.map .conn } := by
  induction evs generalizing s with
  | nil =>
    have : s = { s with todo := rest, tasks := s.tasks ++ (Spec.started []).map (startTask len), log := s.log ++ [].map .conn } := by
      cases s; simp [Spec.started] at ht ⊢; exact ht
    rw [← this]
    exact .refl _
  | cons e evs ih =>
    have trans : ∀ {a b c : CRState}, CRSteps len a b → CRSteps len b c → CRSteps len a c := by
      intro a b c h1 h2
      induction h2 with
      | refl => exact h1
      | tail _ hs ih => exact .tail ih hs
    cases e with
    | go t =>
      refine trans (.tail (.refl _) (.go s t (evs ++ rest) ht hd)) ?_
      have := ih { s with todo := evs ++ rest, tasks := s.tasks ++ [startTask len t], log := s.log ++ [.conn (.go t)] } hd rfl
      simpa [Spec.started] using this
    | onClose =>
      refine trans (.tail (.refl _) (.conn s .onClose (evs ++ rest) ht (Or.inl rfl) hd)) ?_
      have := ih { s with todo := evs ++ rest, log := s.log ++ [.conn .onClose] } hd rfl
      simpa [Spec.started] using this
    | closeConn =>
      refine trans (.tail (.refl _) (.conn s .closeConn (evs ++ rest) ht (Or.inr rfl) hd)) ?_
      have := ih { s with todo := evs ++ rest, log := s.log ++ [.conn .closeConn] } hd rfl
      simpa [Spec.started] using this

theorem start_task (len : Bytes → Option Nat) (s : CRState) (hd : s.dead = false) (k n : Nat) (t : CTask) (ns : List Nat)
    (hk : s.tasks[k]? = some t) (ht : t.p = pinit (n + 1) ns) :
    ∃ t', CRStep len s { s with tasks := s.tasks.set k t', log := s.log ++ [.task k 0 (.start 0)] } := by
  have h := CRStep.task (len := len) s k t _ hk (.start t.p.cur [] 0 (by rw [ht]; rfl) (by rw [ht]; simp [pinit, init]) (by rw [ht]; simp [pinit, init, ABORT])) hd
  have h1 : (evOf t.p.cur { t.p.cur with stack := .hnd t.p.cur.offset.toNat 0 :: .post :: [], started := t.p.cur.started ++ [t.p.cur.offset.toNat] }) =
      [.start 0] := by rw [ht]; rfl
  have h2 : t.p.idx = 0 := by rw [ht]; rfl
  rw [h1, h2] at h
  have hdd : t.p.cur.panicked = s.dead := by rw [ht, hd]; rfl
  exact ⟨_, by simpa only [List.map_cons, List.map_nil, hdd] using h⟩

end Tcpx
