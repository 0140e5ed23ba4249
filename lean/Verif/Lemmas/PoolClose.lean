import Verif.Lemmas.Pool
import Verif.Spec.Pool
namespace Tcpx
open Spec

/-! # Lemmas about closing connections (C43) -/

structure Marks where
  isCode : Prop
  net : Bool
  ended : Bool
  off : Bool

/-- For connection `c`: which parts of closing this goroutine has done. -/
def closeTS (c : Nat) : TS Marks where
  ok s a := (∀ r, a = .ret (.close c) r → s.net = true ∧ s.ended = true ∧ s.off = true) ∧ ∀ x v, a = .setName x v → ∃ u, v = .str u
  poss _ a r := ∀ x v, a = .getName x → r = .any (some v) → ∃ u, v = .str u
  next s a _ :=
    match a with
    | .closeNet x => if x = c then { s with net := true } else s
    | .closeEnd x => if x = c then { s with ended := true } else s
    | .setOffline x => if x = c then { s with off := true } else s
    | _ => s
  panicOk s := ¬ s.isCode

theorem closeTS_ok (c s a) : (closeTS c).ok s a =
  ((∀ r, a = .ret (.close c) r → s.net = true ∧ s.ended = true ∧ s.off = true) ∧ ∀ x v, a = .setName x v → ∃ u, v = .str u) := rfl
theorem closeTS_poss (c s a r) : (closeTS c).poss s a r = (∀ x v, a = .getName x → r = .any (some v) → ∃ u, v = .str u) := rfl
theorem closeTS_next (c s a r) : (closeTS c).next s a r =
    match a with
    | .closeNet x => if x = c then { s with net := true } else s
    | .closeEnd x => if x = c then { s with ended := true } else s
    | .setOffline x => if x = c then { s with off := true } else s
    | _ => s := rfl
theorem closeTS_panic (c s) : (closeTS c).panicOk s = ¬ s.isCode := rfl

theorem poolOffline_close (c : Nat) (p : Nat) (u : String) (s : Marks) :
    (poolOffline p u).Tr (closeTS c) (fun _ s' => s' = s) s := by
  simp only [poolOffline, tr_monad_bind, tr_poolLook, closeTS_ok, closeTS_next]
  refine ⟨by simp, fun o _ => ?_⟩
  cases o <;> simp [tr_ret, tr_doUnit, closeTS_ok, closeTS_next]

theorem ctxOffline_close (c : Nat) (R : Nat → Option Nat) (x : Nat) (s : Marks) :
    (ctxOffline R x).Tr (closeTS c) (fun _ s' => s' = s) s := by
  unfold ctxOffline
  split
  · rfl
  · rename_i p _
    simp only [tr_monad_bind, tr_connName]
    refine ⟨by simp [closeTS_ok], fun _ => rfl, fun v hv => ⟨?_, ?_⟩⟩
    · rintro u rfl
      refine (poolOffline_close c p u _).mono ?_
      rintro _ _ rfl
      rfl
    · intro h
      obtain ⟨u, rfl⟩ := hv x v rfl rfl
      exact absurd rfl (h u)

theorem closeConn_close (c : Nat) (R : Nat → Option Nat) (x : Nat) (s : Marks) :
    (closeConn R x).Tr (closeTS c) (fun _ s' => s'.isCode = s.isCode ∧ (x = c → s'.net = true ∧ s'.ended = true ∧ s'.off = true)) s := by
  unfold closeConn
  simp only [tr_monad_bind, tr_doUnit, tr_doAct]
  refine ⟨by simp [closeTS_ok], fun _ _ _ => ⟨by simp [closeTS_ok], fun _ _ _ => ?_⟩⟩
  have fin : ∀ s' : Marks, s'.isCode = s.isCode → (x = c → s'.net = true ∧ s'.ended = true) →
      (doUnit (.setOffline x)).Tr (closeTS c)
        (fun _ s' => s'.isCode = s.isCode ∧ (x = c → s'.net = true ∧ s'.ended = true ∧ s'.off = true)) s' := by
    intro s' h1 h2
    rw [tr_doUnit]
    refine ⟨by simp [closeTS_ok], fun _ _ _ => ?_⟩
    simp only [closeTS_next]
    by_cases hx : x = c
    · simp [hx, h1, h2 hx]
    · simp [hx, h1]
  have fin2 := fin ((closeTS c).next ((closeTS c).next s (.closeNet x) .unit) (.closeEnd x) .unit)
    (by simp only [closeTS_next]; split <;> rfl) (by intro hx; simp [closeTS_next, hx])
  split
  · rw [tr_monad_bind]
    refine (ctxOffline_close c R x _).mono ?_
    rintro _ _ rfl
    exact fin2
  · exact fin2

theorem call_close (c : Nat) (R : Nat → Option Nat) (x : PCall) (hx : ¬ ForgesName x) (s : Marks) (hs : s.isCode) :
    (x.run R).Tr (closeTS c) (fun _ s' => s'.isCode) s := by
  unfold PCall.run
  simp only [tr_monad_bind, tr_doUnit]
  refine ⟨by simp [closeTS_ok], fun _ _ _ => ?_⟩
  simp only [closeTS_next]
  suffices h : (x.body R).Tr (closeTS c) (fun _ s' => s'.isCode ∧ (x = .close c → s'.net = true ∧ s'.ended = true ∧ s'.off = true)) s by
    refine h.mono fun r s' hs' => ⟨⟨?_, by simp⟩, fun _ _ _ => hs'.1⟩
    rintro r' he
    simp only [PAct.ret.injEq] at he
    exact hs'.2 he.1
  cases x with
  | poolOnline p u c' => exact ⟨by simp [closeTS_ok], fun _ _ _ => ⟨hs, by simp⟩⟩
  | poolGet p u =>
    simp only [PCall.body, tr_monad_bind, tr_poolLook]
    exact ⟨by simp [closeTS_ok], fun _ _ => ⟨hs, by simp⟩⟩
  | poolDelete p u => exact ⟨by simp [closeTS_ok], fun _ _ _ => ⟨hs, by simp⟩⟩
  | poolOffline p u =>
    simp only [PCall.body, tr_monad_bind]
    refine (poolOffline_close c p u s).mono ?_
    rintro _ _ rfl
    exact ⟨hs, by simp⟩
  | online c' u =>
    simp only [PCall.body, tr_monad_bind, ctxOnline]
    split
    · exact ⟨hs, by simp⟩
    · simp only [tr_monad_bind, tr_doUnit]
      refine ⟨by simp [closeTS_ok], fun _ _ _ => ?_⟩
      split
      · exact ⟨hs, by simp⟩
      · exact ⟨by simp [closeTS_ok], fun _ _ _ => ⟨hs, by simp⟩⟩
  | offline c' =>
    simp only [PCall.body, tr_monad_bind]
    refine (ctxOffline_close c R c' s).mono ?_
    rintro _ _ rfl
    exact ⟨hs, by simp⟩
  | close c' =>
    simp only [PCall.body, tr_monad_bind]
    refine (closeConn_close c R c' s).mono ?_
    rintro _ s' ⟨h1, h2⟩
    refine ⟨by rw [h1]; exact hs, ?_⟩
    intro h
    simp only [PCall.close.injEq] at h
    exact h2 h
  | sendTo c' u f =>
    simp only [PCall.body, tr_monad_bind, sendToUsername]
    split
    · exact ⟨hs, by simp⟩
    · simp only [tr_monad_bind, tr_poolLook]
      refine ⟨by simp [closeTS_ok], fun o _ => ?_⟩
      cases o with
      | none => exact ⟨hs, by simp⟩
      | some c'' =>
        simp only [tr_monad_bind, tr_isOfflineNow]
        refine ⟨by simp [closeTS_ok], fun o _ => ?_⟩
        cases o with
        | true => exact ⟨hs, by simp⟩
        | false =>
          simp only [Bool.false_eq_true, if_false, tr_monad_bind, tr_doAct]
          refine ⟨by simp [closeTS_ok], ?_⟩
          rintro _ ⟨b, rfl⟩ _
          exact ⟨hs, by simp⟩
  | isOffline c' =>
    simp only [PCall.body, tr_monad_bind, tr_isOfflineNow]
    exact ⟨by simp [closeTS_ok], fun _ _ => ⟨hs, by simp⟩⟩
  | setUsername c' u => exact ⟨by simp [closeTS_ok], fun _ _ _ => ⟨hs, by simp⟩⟩
  | setReq c' v =>
    refine ⟨⟨by simp, ?_⟩, fun _ _ _ => ⟨hs, by simp⟩⟩
    rintro x v' he
    simp only [PAct.setName.injEq] at he
    obtain ⟨_, rfl⟩ := he
    simp only [ForgesName, ne_eq, Classical.not_forall, Classical.not_not] at hx
    exact hx

theorem sweepGo_close (c : Nat) (R : Nat → Option Nat) (p : Nat) (ks : List String) (s : Marks) (hs : ¬ s.isCode) :
    (sweep.go R p ks).Tr (closeTS c) (fun _ s' => ¬ s'.isCode) s := by
  induction ks generalizing s with
  | nil => exact hs
  | cons k ks ih =>
    unfold sweep.go
    rw [tr_act]
    refine ⟨by simp [closeTS_ok], ?_⟩
    rintro _ ⟨o, rfl⟩ _
    cases o with
    | none => exact hs
    | some c' =>
      simp only [PProg.tr_bind]
      refine (closeConn_close c R c' _).mono ?_
      rintro _ s' ⟨h, _⟩
      refine ⟨by simp [closeTS_ok], fun _ _ _ => ih _ ?_⟩
      simp only [closeTS_next] at h ⊢
      rw [h]; exact hs

theorem sweep_close (c : Nat) (R : Nat → Option Nat) (order : List String → List String) (p : Nat) (s : Marks) (hs : ¬ s.isCode) :
    (sweep R order p).Tr (closeTS c) (fun _ _ => True) s := by
  refine ⟨by simp [closeTS_ok], fun _ _ _ => ⟨by simp [closeTS_ok], ?_⟩⟩
  rintro _ ⟨l, rfl⟩ _
  simp only [PProg.tr_bind]
  refine (sweepGo_close c R p _ _ hs).mono ?_
  intro _ s' _
  exact ⟨by simp [closeTS_ok], fun _ _ _ => trivial⟩

/-- Closing flags only ever go on. -/
theorem act_flags {w w' : World} {i : Nat} {a : PAct} {r : PVal} (h : w.act i a = some (r, w')) (c : Nat) :
    ((w.conn c).netClosed = true → (w'.conn c).netClosed = true) ∧ ((w.conn c).endClosed = true → (w'.conn c).endClosed = true) ∧
    ((w.conn c).offline = true → (w'.conn c).offline = true) := by
  cases a <;> simp only [World.act] at h <;> (try split at h) <;>
    simp only [Option.some.injEq, Prod.mk.injEq, reduceCtorEq] at h <;> obtain ⟨_, rfl⟩ := h <;>
    (try exact ⟨id, id, id⟩) <;>
    simp only [World.setConn] <;> split <;> (try subst_vars) <;> simp_all

theorem act_names {w w' : World} {i : Nat} {a : PAct} {r : PVal} (h : w.act i a = some (r, w')) (c : Nat) :
    (∃ v, a = .setName c v ∧ (w'.conn c).name = some v) ∨ ((w'.conn c).name = (w.conn c).name ∧ ∀ v, a ≠ .setName c v) := by
  cases a <;> simp only [World.act] at h <;> (try split at h) <;>
    simp only [Option.some.injEq, Prod.mk.injEq, reduceCtorEq] at h <;> obtain ⟨_, rfl⟩ := h <;>
    (try exact .inr ⟨rfl, by simp⟩) <;>
    simp only [World.setConn] <;> split <;> (try subst_vars) <;> simp
  rename_i h
  exact .inr fun e => h e.symm

theorem closed_cons (e : PEvent) (tr : List PEvent) (c : Nat) :
    Closed (e :: tr) c ↔ (∃ r, e.action = .ret (.close c) r) ∨ Closed tr c := by
  unfold Closed history
  simp only [List.filterMap_cons]
  obtain ⟨i, a, v⟩ := e
  cases a <;> simp
  constructor
  · rintro ⟨tid, r, ⟨_, h, _⟩ | h⟩
    · exact .inl h.symm
    · exact .inr ⟨tid, r, h⟩
  · rintro (rfl | ⟨tid, r, h⟩)
    · exact ⟨_, _, .inl ⟨rfl, rfl, rfl⟩⟩
    · exact ⟨tid, r, .inr h⟩

/-! ## Uninterrupted execution -/

theorem exec_monad_bind {α β : Type} (tid : Nat) (p : PProg α) (f : α → PProg β) (w : World) :
    (p >>= f).exec tid w = match p.exec tid w with
      | .done a w' => (f a).exec tid w'
      | .panic w' => .panic w'
      | .blocked w' => .blocked w' := PProg.exec_bind tid p f w

theorem poolOffline_exec (w : World) (p : Nat) (u : String) (tid : Nat) (hf : (w.pool p).holder = none) :
    ∃ w', (poolOffline p u).exec tid w = .done () w' ∧ w'.conn = w.conn ∧
      (∀ q, (w'.pool q).holder = (w.pool q).holder) ∧
      ∀ q u', (w'.pool q).clients.get? u' = if q = p ∧ u' = u then none else (w.pool q).clients.get? u' := by
  cases h : (w.pool p).clients.get? u with
  | none =>
    refine ⟨w, ?_, rfl, fun _ => rfl, ?_⟩
    · simp [poolOffline, exec_monad_bind, poolLook, PProg.exec, World.act, hf, h]
    · intro q u'
      split
      · rename_i hq
        obtain ⟨rfl, rfl⟩ := hq
        exact h
      · rfl
  | some x =>
    refine ⟨w.setPool p { w.pool p with clients := (w.pool p).clients.delete u }, ?_, rfl, ?_, ?_⟩
    · simp [poolOffline, exec_monad_bind, poolLook, PProg.exec, World.act, hf, h, doUnit]
    · intro q
      simp only [World.setPool]
      split
      · rename_i hq; subst hq; rfl
      · rfl
    · intro q u'
      simp only [World.setPool]
      by_cases hq : q = p
      · subst hq; simp [GoMap.get?_delete]
      · simp [hq]

theorem closeConn_exec (R : Nat → Option Nat) (w : World) (c tid : Nat) (hn : ∀ v, (w.conn c).name = some v → ∃ u, v = .str u)
    (hf : ∀ p u, R c = some p → (w.conn c).name = some (.str u) → (w.pool p).holder = none) :
    ∃ w', (closeConn R c).exec tid w = .done () w' ∧
      (∀ x, w'.conn x = if x = c then { w.conn c with netClosed := true, endClosed := true, offline := true } else w.conn x) ∧
      (∀ q, (w'.pool q).holder = (w.pool q).holder) ∧
      ∀ q u, (w'.pool q).clients.get? u =
        if R c = some q ∧ (w.conn c).name = some (.str u) then none else (w.pool q).clients.get? u := by
  have plain : (∀ p u, R c = some p → (w.conn c).name ≠ some (.str u)) →
      ∃ w', (closeConn R c).exec tid w = .done () w' ∧
      (∀ x, w'.conn x = if x = c then { w.conn c with netClosed := true, endClosed := true, offline := true } else w.conn x) ∧
      (∀ q, (w'.pool q).holder = (w.pool q).holder) ∧
      ∀ q u, (w'.pool q).clients.get? u =
        if R c = some q ∧ (w.conn c).name = some (.str u) then none else (w.pool q).clients.get? u := by
    intro hno
    refine ⟨w.setConn c { w.conn c with netClosed := true, endClosed := true, offline := true }, ?_, fun _ => rfl, fun _ => rfl, ?_⟩
    · have hset : ∀ s1 s2 : ConnSt, (w.setConn c s1).setConn c s2 = w.setConn c s2 := by
        intro s1 s2
        simp only [World.setConn, World.mk.injEq, and_true]
        funext i; split <;> simp_all
      cases hR : R c with
      | none =>
        simp [closeConn, exec_monad_bind, doUnit, doAct, PProg.exec, World.act, hR]
        simp [World.setConn]
        funext i; split <;> simp_all
      | some p =>
        have : (w.conn c).name = none := by
          cases hN : (w.conn c).name with
          | none => rfl
          | some v =>
            obtain ⟨u, rfl⟩ := hn v hN
            exact absurd hN (hno p u hR)
        simp [closeConn, exec_monad_bind, doUnit, doAct, PProg.exec, World.act, hR, ctxOffline, connName, World.setConn, this]
        funext i; split <;> simp_all
    · intro q u
      rw [if_neg]
      · rfl
      · rintro ⟨h1, h2⟩
        exact hno q u h1 h2
  cases hR : R c with
  | none => rw [hR] at plain; exact plain (by simp)
  | some p =>
    rw [hR] at plain
    cases hN : (w.conn c).name with
    | none => rw [hN] at plain; exact plain (by simp)
    | some v =>
      obtain ⟨u, rfl⟩ := hn v hN
      clear plain
      obtain ⟨w1, h1, h2, h3, h4⟩ := poolOffline_exec
        (w.setConn c { w.conn c with netClosed := true, endClosed := true }) p u tid (hf p u hR hN)
      refine ⟨w1.setConn c { w1.conn c with offline := true }, ?_, ?_, ?_, ?_⟩
      · have hw : ((w.setConn c { w.conn c with netClosed := true }).setConn c
            { (w.setConn c { w.conn c with netClosed := true }).conn c with endClosed := true }) =
            w.setConn c { w.conn c with netClosed := true, endClosed := true } := by
          simp only [World.setConn, World.mk.injEq, and_true]
          funext i; split <;> simp_all
        simp only [closeConn, exec_monad_bind, doUnit, doAct, PProg.exec, World.act, hw, hR, Option.isSome_some, if_true]
        have : (ctxOffline R c).exec tid (w.setConn c { w.conn c with netClosed := true, endClosed := true }) = .done true w1 := by
          simp only [ctxOffline, hR, exec_monad_bind, connName, PProg.exec, World.act]
          have hN' : ((w.setConn c { w.conn c with netClosed := true, endClosed := true }).conn c).name = some (.str u) := by
            simp [World.setConn, hN]
          simp only [hN', Any.asString, PProg.exec, exec_monad_bind, h1]
        simp only [this]
      · intro x
        simp only [World.setConn, h2]
        by_cases hx : x = c
        · simp [hx]
        · simp [hx]
      · exact h3
      · intro q u'
        have := h4 q u'
        simp only [World.setConn] at this ⊢
        rw [this]
        simp [eq_comm]

end Tcpx
