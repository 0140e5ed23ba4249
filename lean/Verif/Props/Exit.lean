import Verif.Lemmas.Exit
import Verif.Props.Strings
import Verif.Props.Lifecycle
/-!
# C87: callbacks before exit, C88: `Defer`, C89: what listening calls return
-/
namespace Tcpx
open Spec

/-! ## C87 -/

/-- The calls of `BeforeExit` in a schedule. -/
def Spec.exitCalls : List XLabel → List (List Bool)
  | [] => []
  | .call fs :: ls => fs :: exitCalls ls
  | _ :: ls => exitCalls ls

theorem dead_run (s : XState) (h : s.alive = false) (ls : List XLabel) : s.run ls = s := by
  induction ls with
  | nil => rfl
  | cons l ls ih =>
    have : s.step l = none := by cases l <;> simp [XState.step, h]
    rw [XState.run, this]
    exact ih

theorem exitCalls_run (s : XState) (ls : List XLabel) : (s.run ls).calls.map (·.fs) <+: s.calls.map (·.fs) ++ exitCalls ls := by
  induction ls generalizing s with
  | nil => simp [XState.run, exitCalls]
  | cons l ls ih =>
    cases ha : s.alive with
    | false =>
      rw [dead_run s ha]
      exact List.prefix_append _ _
    | true =>
      refine (ih _).trans ?_
      cases l with
      | call fs => simp [XState.step, ha, exitCalls]
      | signal x =>
        simp only [XState.step, ha, if_true, exitCalls]
        split
        · simp
        · have hd : ∀ c, (XState.deliver c).fs = c.fs := fun c => by unfold XState.deliver; split <;> rfl
          simp [Function.comp_def, hd]
      | run g =>
        have hset : ∀ c pc, s.calls[g]? = some c → (s.calls.set g { c with pc := pc }).map (·.fs) = s.calls.map (·.fs) := by
          intro c pc hc
          obtain ⟨hlt, rfl⟩ := List.getElem?_eq_some_iff.1 hc
          rw [List.map_set]
          apply List.ext_getElem?
          intro i
          by_cases hi : g = i
          · subst hi
            rw [List.getElem?_set_self (by simpa using hlt)]
            simp [hlt]
          · rw [List.getElem?_set_ne hi]
        have : (((s.step (.run g)).getD s).calls.map (·.fs)) = s.calls.map (·.fs) := by
          simp only [XState.step, ha, if_true]
          cases hc : s.calls[g]? with
          | none => rfl
          | some c =>
            simp only
            split
            · exact hset c _ hc
            · exact hset c _ hc
            · rfl
            · split
              · rfl
              · exact hset c _ hc
            · rfl
        rw [this]
        exact List.prefix_refl _

/-- In every run: the callbacks of a call of `BeforeExit` are called in order, each at most once, none before a signal has arrived;
`BeforeExit` ends the process only after all callbacks of that call have been called and have returned. -/
theorem C87_order (ls : List XLabel) (g : Nat) :
    ∃ m, calledBy g (XState.run {} ls).trace = (List.range m).reverse ∧
      (0 < m → ∃ x, .signal x ∈ (XState.run {} ls).trace) ∧
      (0 < m → ∃ fs, (exitCalls ls)[g]? = some fs ∧ m ≤ fs.length) ∧
      (.exit g ∈ (XState.run {} ls).trace → ∃ fs, (exitCalls ls)[g]? = some fs ∧ m = fs.length ∧ true ∉ fs) := by
  have hok := xok_run g ls
  have hpre := exitCalls_run {} ls
  simp only [List.map_nil, List.nil_append] at hpre
  cases hc : (XState.run {} ls).calls[g]? with
  | none => exact ⟨0, (hok.none hc).1, fun h => absurd h (Nat.lt_irrefl _), fun h => absurd h (Nat.lt_irrefl _), fun h => absurd h (hok.none hc).2⟩
  | some c =>
    have hfs : (exitCalls ls)[g]? = some c.fs := by
      obtain ⟨t, ht⟩ := hpre
      obtain ⟨hlt, he⟩ := List.getElem?_eq_some_iff.1 hc
      rw [← ht, List.getElem?_append_left (by simpa using hlt)]
      simp [hc]
    have h := hok.one c hc
    cases hpc : c.pc with
    | calling k =>
      obtain ⟨h1, h2, h3, h4⟩ := h.calling k hpc
      refine ⟨k, h3, fun _ => h4, fun _ => ⟨c.fs, hfs, h1⟩, fun hx => ?_⟩
      have := h.exit hx
      rw [hpc] at this
      cases this
      refine ⟨c.fs, hfs, rfl, fun hm => ?_⟩
      obtain ⟨i, hi, he⟩ := List.mem_iff_getElem.1 hm
      have := h2 i hi
      rw [List.getElem?_eq_getElem hi, he] at this
      cases this
    | dead =>
      obtain ⟨k, h1, h2, h3, h4⟩ := h.dead hpc
      refine ⟨k + 1, h3, fun _ => h4, fun _ => ⟨c.fs, hfs, (List.getElem?_eq_some_iff.1 h1).1⟩, fun hx => ?_⟩
      have := h.exit hx
      rw [hpc] at this
      cases this
    | _ =>
      refine ⟨0, h.early (by simp [hpc]), fun h => absurd h (Nat.lt_irrefl _), fun h => absurd h (Nat.lt_irrefl _), fun hx => ?_⟩
      have := h.exit hx
      rw [hpc] at this
      cases this

theorem exit_stays (s : XState) (g : Nat) (h : .exit g ∈ s.trace) (ls : List XLabel) : .exit g ∈ (s.run ls).trace := by
  refine XState.run_induct (P := fun s => .exit g ∈ s.trace) h ?_
  intro s l s' _ h hs
  cases l with
  | call fs =>
    simp only [XState.step] at hs
    split at hs
    · cases hs; exact h
    · cases hs
  | signal x =>
    simp only [XState.step] at hs
    split at hs
    · split at hs <;> cases hs <;> simp [h]
    · cases hs
  | run g' =>
    simp only [XState.step] at hs
    split at hs
    · split at hs
      · cases hs
      · split at hs
        · cases hs; exact h
        · cases hs; exact h
        · cases hs
        · split at hs <;> cases hs <;> simp [h]
        · cases hs
    · cases hs

/-- A goroutine calling its callbacks, none of which panics, exits the process if it gets enough steps and nobody ends the process
before. -/
theorem calling_exits (g : Nat) (fs : List Bool) (hfs : true ∉ fs) (ls : List XLabel) (hk : .signal .kill ∉ ls)
    (hother : ∀ g', g' ≠ g → .run g' ∉ ls) : ∀ (k : Nat) (s : XState), s.alive = true → s.calls[g]? = some ⟨fs, .calling k⟩ → k ≤ fs.length →
    fs.length + 1 - k ≤ ls.count (.run g) → .exit g ∈ (s.run ls).trace := by
  induction ls with
  | nil => intro k s _ _ hkl hn; simp at hn; omega
  | cons l ls ih =>
    intro k s ha hc hkl hn
    have ih := ih (fun h => hk (List.mem_cons_of_mem _ h)) (fun g' hg h => hother g' hg (List.mem_cons_of_mem _ h))
    have hlt : g < s.calls.length := (List.getElem?_eq_some_iff.1 hc).1
    rw [XState.run]
    cases l with
    | call fs' =>
      refine ih k _ ?_ ?_ hkl (by simpa using hn)
      · simp [XState.step, ha]
      · simp only [XState.step, ha, if_true, Option.getD_some]
        rw [List.getElem?_append_left hlt]
        exact hc
    | signal x =>
      have hx : x ≠ .kill := fun h => hk (by simp [h])
      have hall : ¬ ∀ c ∈ s.calls, c.pc = .fresh := by
        intro h
        have := h _ (List.mem_of_getElem? hc)
        cases this
      refine ih k _ ?_ ?_ hkl (by simpa using hn)
      · simp [XState.step, ha, hx, hall]
      · simp only [XState.step, ha, if_true, hx, hall, or_self, if_false, Option.getD_some, List.getElem?_map, hc, Option.map_some]
        simp [XState.deliver]
    | run g' =>
      have hg : g' = g := Classical.byContradiction fun h => hother g' h List.mem_cons_self
      subst hg
      simp only [XState.step, ha, if_true, hc]
      rw [List.count_cons_self] at hn
      cases hf : fs[k]? with
      | none =>
        simp only [Option.getD_some]
        exact exit_stays _ _ (by simp) ls
      | some p =>
        have hp : p = false := by
          cases p with
          | false => rfl
          | true => exact absurd (List.mem_of_getElem? hf) hfs
        subst hp
        have hkl' : k < fs.length := (List.getElem?_eq_some_iff.1 hf).1
        simp only [Option.getD_some]
        refine ih (k + 1) _ rfl ?_ hkl' (by omega)
        simp [List.getElem?_set_self hlt]

/-- If a goroutine of `BeforeExit` is receiving when SIGINT, SIGTERM or SIGQUIT arrives, and none of its callbacks panics, all of them
are called and then the process exits, whatever else is called or signalled meanwhile.
Missing: panicking callbacks (`C87_panic_violated`), signals that arrive before the goroutine receives (`C87_lost_signal_violated`),
other calls of `BeforeExit` that exit first (`C87_two_calls_violated`). -/
theorem C87_exits_partial (ls ls' : List XLabel) (g : Nat) (fs : List Bool) (x : Signal) (hx : x ≠ .kill)
    (ha : (XState.run {} ls).alive = true) (hg : (XState.run {} ls).calls[g]? = some ⟨fs, .waiting⟩) (hfs : true ∉ fs)
    (hk : .signal .kill ∉ ls') (hother : ∀ g', g' ≠ g → .run g' ∉ ls') (hn : fs.length + 1 ≤ ls'.count (.run g)) :
    .exit g ∈ (XState.run {} (ls ++ .signal x :: ls')).trace ∧
    calledBy g (XState.run {} (ls ++ .signal x :: ls')).trace = (List.range fs.length).reverse := by
  have h1 : .exit g ∈ (XState.run {} (ls ++ .signal x :: ls')).trace := by
    rw [XState.run_append, XState.run]
    have hall : ¬ ∀ c ∈ (XState.run {} ls).calls, c.pc = .fresh := by
      intro h
      have := h _ (List.mem_of_getElem? hg)
      cases this
    refine calling_exits g fs hfs ls' hk hother 0 _ ?_ ?_ (Nat.zero_le _) (by omega)
    · simp [XState.step, ha, hx, hall]
    · simp only [XState.step, ha, if_true, hx, hall, or_self, if_false, Option.getD_some, List.getElem?_map, hg, Option.map_some]
      simp [XState.deliver]
  refine ⟨h1, ?_⟩
  obtain ⟨m, h2, -, -, h3⟩ := C87_order (ls ++ .signal x :: ls') g
  obtain ⟨fs', h4, h5, -⟩ := h3 h1
  have h6 : (exitCalls (ls ++ .signal x :: ls'))[g]? = some fs := by
    have e : exitCalls (ls ++ .signal x :: ls') = exitCalls ls ++ exitCalls ls' := by
      clear h1 h2 h3 h4 h5 ha hg
      induction ls with
      | nil => rfl
      | cons l ls ih => cases l <;> simp [exitCalls, ih]
    obtain ⟨t, ht⟩ := exitCalls_run {} ls
    simp only [List.map_nil, List.nil_append] at ht
    obtain ⟨hlt, he⟩ := List.getElem?_eq_some_iff.1 hg
    rw [e, ← ht, List.append_assoc, List.getElem?_append_left (by simpa using hlt)]
    simp [hg]
  rw [h4] at h6
  cases h6
  rw [h2, h5]

example : let ls : List XLabel := [.call [false, false], .run 0, .run 0]
    (XState.run {} ls).calls[0]? = some ⟨[false, false], .waiting⟩ ∧
    (XState.run {} (ls ++ [.signal .term, .run 0, .signal .int, .run 0, .run 0])).trace =
      [.exit 0, .callback 0 1, .signal .int, .callback 0 0, .signal .term] := by decide

/-- Everything there is when one call of `BeforeExit` has been made, one of whose callbacks panics. -/
theorem panic_alive (fs : List Bool) (j : Nat) (hj : fs[j]? = some true) (ls : List XLabel) (hk : .signal .kill ∉ ls)
    (hc : ∀ fs', .call fs' ∉ ls) : ∀ (s : XState) (pc : XPc), s.alive = true → s.calls = [⟨fs, pc⟩] → pc ≠ .fresh →
    (∀ k, pc = .calling k → k ≤ j) → (s.run ls).alive = true := by
  induction ls with
  | nil => exact fun s pc h _ _ _ => h
  | cons l ls ih =>
    intro s pc ha hs hpc hle
    have ih := ih (fun h => hk (List.mem_cons_of_mem _ h)) (fun fs' h => hc fs' (List.mem_cons_of_mem _ h))
    rw [XState.run]
    cases l with
    | call fs' => exact absurd List.mem_cons_self (hc fs')
    | signal x =>
      have hx : x ≠ .kill := fun h => hk (by simp [h])
      simp only [XState.step, ha, if_true, hx, hs, List.mem_singleton, forall_eq, hpc, or_self, if_false, Option.getD_some, List.map_cons,
        List.map_nil]
      by_cases hw : pc = .waiting
      · refine ih _ (.calling 0) rfl (by simp [XState.deliver, hw]) (by simp) ?_
        intro k hk
        cases hk
        exact Nat.zero_le _
      · exact ih _ pc rfl (by simp [XState.deliver, hw]) hpc hle
    | run g =>
      cases g with
      | succ g =>
        have : s.step (.run (g + 1)) = none := by simp [XState.step, ha, hs]
        rw [this]
        exact ih s pc ha hs hpc hle
      | zero =>
        simp only [XState.step, ha, if_true, hs, List.getElem?_cons_zero]
        cases hp : pc with
        | fresh => exact absurd hp hpc
        | registered => exact ih _ .waiting rfl (by simp) (by simp) (fun k h => (by cases h))
        | waiting => exact ih s pc ha hs hpc hle
        | dead => exact ih s pc ha hs hpc hle
        | calling k =>
          have hkj := hle k hp
          have hkl : k < fs.length := by
            have := (List.getElem?_eq_some_iff.1 hj).1
            omega
          simp only [List.getElem?_eq_getElem hkl, Option.getD_some]
          cases hb : fs[k] with
          | true => exact ih _ .dead rfl (by simp) (by simp) (fun k h => (by cases h))
          | false =>
            refine ih _ (.calling (k + 1)) rfl (by simp) (by simp) ?_
            intro k' h
            cases h
            have : k ≠ j := by
              rintro rfl
              rw [List.getElem?_eq_getElem hkl, hb] at hj
              cases hj
            omega

/-- A panicking callback keeps the process from ever exiting on these signals: once the goroutine of the only call of `BeforeExit` has
begun, no number of SIGINT, SIGTERM and SIGQUIT, in whatever schedule, ends the process. -/
theorem C87_panic_violated (fs : List Bool) (hfs : true ∈ fs) (ls : List XLabel) (hk : .signal .kill ∉ ls) (hc : ∀ fs', .call fs' ∉ ls) :
    (XState.run {} (.call fs :: .run 0 :: ls)).alive = true := by
  obtain ⟨j, hj, he⟩ := List.mem_iff_getElem.1 hfs
  exact panic_alive fs j (by rw [List.getElem?_eq_getElem hj, he]) ls hk hc _ .registered rfl rfl (by simp) (fun k h => (by cases h))

/-- A signal that arrives when the goroutine has registered but is not yet receiving is lost: nothing is called and the process goes on,
as long as no other signal arrives. -/
theorem C87_lost_signal_violated (fs : List Bool) (x : Signal) (hx : x ≠ .kill) (ls : List XLabel) (hs : ∀ y, .signal y ∉ ls) :
    (XState.run {} ([.call fs, .run 0, .signal x] ++ ls)).alive = true ∧
    (XState.run {} ([.call fs, .run 0, .signal x] ++ ls)).trace = [.signal x] := by
  rw [XState.run_append]
  have h0 : XState.run {} [.call fs, .run 0, .signal x] = { calls := [⟨fs, .registered⟩], alive := true, trace := [.signal x] } := by
    simp [XState.run, XState.step, hx, XState.deliver]
  rw [h0]
  have := XState.run_induct (s := { calls := [⟨fs, .registered⟩], alive := true, trace := [.signal x] }) (ls := ls)
    (P := fun s => s.alive = true ∧ s.trace = [.signal x] ∧ ∀ c ∈ s.calls, c.pc = .fresh ∨ c.pc = .registered ∨ c.pc = .waiting)
    ⟨rfl, rfl, by simp⟩ ?_
  · exact ⟨this.1, this.2.1⟩
  · rintro s l s' hl ⟨h1, h2, h3⟩ hst
    cases l with
    | signal y => exact absurd hl (hs y)
    | call fs' =>
      simp only [XState.step, h1, if_true, Option.some.injEq] at hst
      subst hst
      refine ⟨rfl, h2, fun c hc => ?_⟩
      rcases List.mem_append.1 hc with h | h
      · exact h3 c h
      · simp only [List.mem_singleton] at h
        subst h
        exact .inl rfl
    | run g =>
      simp only [XState.step, h1, if_true] at hst
      cases hc : s.calls[g]? with
      | none => rw [hc] at hst; cases hst
      | some c =>
        rw [hc] at hst
        have hin : ∀ pc', (pc' = .registered ∨ pc' = .waiting) → ∀ c' ∈ s.calls.set g { c with pc := pc' },
            c'.pc = .fresh ∨ c'.pc = .registered ∨ c'.pc = .waiting := by
          intro pc' hp c' hc'
          rcases List.mem_or_eq_of_mem_set hc' with h | h
          · exact h3 c' h
          · subst h; exact .inr hp
        rcases h3 c (List.mem_of_getElem? hc) with h | h | h <;> simp only [h] at hst <;> cases hst
        · exact ⟨rfl, h2, hin _ (.inl rfl)⟩
        · exact ⟨rfl, h2, hin _ (.inr rfl)⟩

/-- A signal that arrives when no goroutine of `BeforeExit` has registered yet, however many calls have returned, ends the process
without any callback. -/
theorem C87_early_signal_violated (fss : List (List Bool)) (x : Signal) (ls : List XLabel) :
    (XState.run {} (fss.map .call ++ .signal x :: ls)).alive = false ∧
    (XState.run {} (fss.map .call ++ .signal x :: ls)).trace = [.killed, .signal x] := by
  have h0 : ∀ s : XState, s.alive = true → (∀ c ∈ s.calls, c.pc = .fresh) →
      (s.run (fss.map .call)).alive = true ∧ (s.run (fss.map .call)).trace = s.trace ∧ ∀ c ∈ (s.run (fss.map .call)).calls, c.pc = .fresh := by
    induction fss with
    | nil => exact fun s h1 h2 => ⟨h1, rfl, h2⟩
    | cons fs fss ih =>
      intro s h1 h2
      simp only [List.map_cons, XState.run, XState.step, h1, if_true, Option.getD_some]
      refine ih _ rfl ?_
      intro c hc
      rcases List.mem_append.1 hc with h | h
      · exact h2 c h
      · simp only [List.mem_singleton] at h; rw [h]
  obtain ⟨h1, h2, h3⟩ := h0 {} rfl (by simp)
  rw [XState.run_append, XState.run]
  simp only [XState.step, h1, if_true, if_pos (Or.inr h3 : x = .kill ∨ _), Option.getD_some, h2]
  refine XState.run_induct (ls := ls) (P := fun s => s.alive = false ∧ s.trace = [.killed, .signal x]) ⟨rfl, rfl⟩ ?_
  rintro s l s' - ⟨h1, h2⟩ hst
  cases l <;> simp [XState.step, h1] at hst

/-- With two calls of `BeforeExit` the first goroutine to finish ends the process; the callbacks of the other may not have been
called. -/
theorem C87_two_calls_violated : ∃ ls, exitCalls ls = [[false], [false]] ∧ .exit 0 ∈ (XState.run {} ls).trace ∧
    calledBy 1 (XState.run {} ls).trace = [] ∧ ∀ c ∈ (XState.run {} ls).calls, c.pc ≠ .waiting :=
  ⟨[.call [false], .call [false], .run 0, .run 0, .run 1, .run 1, .signal .int, .run 0, .run 0], by decide, by decide, by decide, by decide⟩

/-! ## C88 -/

/-- If no handler panics: the handlers are called if and only if `f` panics, then all in order; and `Defer` returns.
Missing: handlers that panic (`C88_handler_violated`), `panic(nil)` (`C88_nil_violated`). -/
theorem C88_defer_partial (f : FnEnd) (hf : f ≠ .nilPanic) (hs : List FnEnd) (hh : ∀ h ∈ hs, h = .returns) :
    (deferCall f hs).2 = .returns ∧ (deferCall f hs).1 = if f = .panics then List.range hs.length else [] := by
  have key : ∀ i, deferCall.go hs i = (List.range' i hs.length, .returns) := by
    induction hs with
    | nil => intro i; rfl
    | cons h hs ih =>
      intro i
      rw [hh h List.mem_cons_self, deferCall.go, ih (fun h' hm => hh h' (List.mem_cons_of_mem _ hm))]
      rfl
  cases f with
  | returns => exact ⟨rfl, rfl⟩
  | nilPanic => exact absurd rfl hf
  | panics => simp [deferCall, key, List.range_eq_range']

example : deferCall .panics [.returns, .returns] = ([0, 1], .returns) ∧ deferCall .returns [.returns] = ([], .returns) := by decide

/-- A panic of a handler leaves `Defer`, and the handlers after it are not called. -/
theorem C88_handler_violated (pre post : List FnEnd) (hp : ∀ h ∈ pre, h = .returns) :
    deferCall .panics (pre ++ .panics :: post) = (List.range (pre.length + 1), .panics) := by
  have key : ∀ i, deferCall.go (pre ++ .panics :: post) i = (List.range' i (pre.length + 1), .panics) := by
    induction pre with
    | nil => intro i; rfl
    | cons h hs ih =>
      intro i
      rw [hp h List.mem_cons_self, List.cons_append, deferCall.go, ih (fun h' hm => hp h' (List.mem_cons_of_mem _ hm))]
      rfl
  simp [deferCall, key, List.range_eq_range']

/-- `panic(nil)` is caught, but no handler is told. -/
theorem C88_nil_violated (hs : List FnEnd) : deferCall .nilPanic hs = ([], .returns) := rfl

/-! ## C89 -/

/-- For TCP networks: `ListenAndServe` returns an error if and only if it could not listen; otherwise it returns (nil) once the server
has been stopped or its listener fails, and not before.
Missing: UDP networks (`C89_udp_violated`, `C89_udp_direct_violated`). -/
theorem C89_tcp_partial (n : List Char) (hn : n ∈ ["tcp".toList, "tcp4".toList, "tcp6".toList, "unix".toList, "unixpacket".toList])
    (listens onConnect : Bool) (script : List (Bool × AcceptEv)) :
    (listenCall n listens onConnect script = .err ↔ listens = false) ∧
    listenCall n listens onConnect script ≠ .panics ∧
    (listens = true → (listenCall n listens onConnect script = .nil ↔
      ∃ x ∈ script, x.1 = true ∨ x.2 = .error ∨ (onConnect = true ∧ x.2 = .conn true))) := by
  obtain ⟨t, ht, h1, -⟩ := C68_transport n
  have : t = .tcp := h1.2 hn
  subst this
  have hloop : (acceptLoop onConnect script).2 ≠ .waiting ↔ ∃ x ∈ script, x.1 = true ∨ x.2 = .error ∨ (onConnect = true ∧ x.2 = .conn true) := by
    induction script with
    | nil => simp [acceptLoop]
    | cons x rest ih =>
      obtain ⟨b, ev⟩ := x
      cases b with
      | true => simp [acceptLoop]
      | false =>
        cases ev with
        | error => simp [acceptLoop]
        | conn p =>
          by_cases hp : (onConnect && p) = true
          · have := hp
            rw [Bool.and_eq_true] at this
            simp [acceptLoop, this.1, this.2]
          · have hp' : ¬ (onConnect = true ∧ p = true) := by rwa [Bool.and_eq_true] at hp
            simp only [acceptLoop, if_neg hp]
            rw [ih]
            simp [hp']
  simp only [listenCall, ht, tcpCall]
  cases listens with
  | false => simp
  | true =>
    rw [← hloop]
    by_cases hw : (acceptLoop onConnect script).2 = .waiting <;> simp [hw]

/-- For names that are neither TCP nor UDP networks it returns an error. -/
theorem C89_unknown (n : List Char) (h1 : n ∉ ["tcp".toList, "tcp4".toList, "tcp6".toList, "unix".toList, "unixpacket".toList])
    (h2 : n ∉ ["udp".toList, "udp4".toList, "udp6".toList, "unixgram".toList]) (h3 : ¬ "ip".toList <+: n) (listens onConnect : Bool)
    (script : List (Bool × AcceptEv)) : listenCall n listens onConnect script = .err := by
  obtain ⟨t, ht, k1, k2⟩ := C68_transport n
  cases t with
  | tcp => exact absurd (k1.1 rfl) h1
  | udp =>
    rcases k2.1 rfl with h | h
    · exact absurd h h2
    · exact absurd h h3
  | refused => simp [listenCall, ht]

/-- For UDP networks it never returns: if it cannot listen it panics, otherwise it blocks for ever, even after `Stop`. -/
theorem C89_udp_violated (n : List Char) (hn : n ∈ ["udp".toList, "udp4".toList, "udp6".toList, "unixgram".toList] ∨ "ip".toList <+: n)
    (onConnect : Bool) (script : List (Bool × AcceptEv)) :
    listenCall n false onConnect script = .panics ∧ listenCall n true onConnect script = .never := by
  obtain ⟨t, ht, -, h2⟩ := C68_transport n
  have : t = .udp := h2.2 hn
  subst this
  simp [listenCall, ht, udpCall]

/-- The same for `ListenAndServeUDP` itself, which moreover panics, before it listens, if it is given more than one buffer size. -/
theorem C89_udp_direct_violated (listens : Bool) (sizes : List Int) :
    udpCall listens sizes.length = .nil ∨ udpCall listens sizes.length = .err → False := by
  unfold udpCall
  cases listens <;> split <;> simp

/-- `ListenAndServeUDP` serves (it does not come back) if and only if the address can be listened on and at most one buffer size is
given; otherwise it panics. -/
theorem C89_udp_serves (listens : Bool) (sizes : List Int) :
    (udpCall listens sizes.length = .never ↔ listens = true ∧ (sizes = [] ∨ ∃ n, sizes = [n])) ∧
    (udpCall listens sizes.length = .panics ↔ listens = false ∨ ∃ n m rest, sizes = n :: m :: rest) := by
  match sizes with
  | [] => cases listens <;> simp [udpCall]
  | [n] => cases listens <;> simp [udpCall]
  | n :: m :: rest => cases listens <;> simp [udpCall]

example : listenCall "tcp".toList true true [(false, .conn false), (true, .error)] = .nil ∧
    listenCall "tcp".toList true true [(false, .conn false)] = .never ∧ listenCall "tcp".toList false true [] = .err ∧
    udpCall true [64].length = .never ∧ udpCall true [64, 128].length = .panics ∧
    listenCall "udp".toList false false [] = .panics ∧ listenCall "kcp".toList true false [] = .err := by decide

end Tcpx
