import Verif.Spec.Answer
import Verif.Lemmas.Requests
/-! # Lemmas about what requests send -/
namespace Tcpx
open Spec

/-- What a request may find under the keys in which the framework keeps router type and pattern. -/
def Finds (rt : String) (q : Res String) (a : Action) (r : Option Any) : Prop :=
  (a = .getReq routerTypeKey → r = none ∨ r = some (.str rt)) ∧
  (a = .getReq urlPatternKey → r = none ∨ ∃ p, q = .ok p ∧ r = some (.str p))

/-- A program that sends `b` and nothing else, once (`true`) or not at all (`false`), and panics only if `pan`. -/
inductive Owes {α : Type} (pan : Prop) (rt : String) (q : Res String) (b : Bytes) (post : α → Bool → Prop) : Bool → Prog α → Prop where
  | ret (a o) : post a o → Owes pan rt q b post o (.ret a)
  | panic (o) : pan → Owes pan rt q b post o .panic
  | send (k) : (∀ r, Owes pan rt q b post false (k r)) → Owes pan rt q b post true (.act (.note (.sent b)) k)
  | other (o a k) : (∀ b', a ≠ .note (.sent b')) → (∀ r, Finds rt q a r → Owes pan rt q b post o (k r)) → Owes pan rt q b post o (.act a k)

section Owes
variable {pan : Prop} {rt : String} {q : Res String} {b : Bytes}

theorem Owes.bind {α β : Type} {post : α → Bool → Prop} {post' : β → Bool → Prop} {o : Bool} {p : Prog α} {f : α → Prog β}
    (hp : Owes pan rt q b post o p) (hf : ∀ a o, post a o → Owes pan rt q b post' o (f a)) : Owes pan rt q b post' o (p.bind f) := by
  induction hp with
  | ret a o h => exact hf a o h
  | panic o h => exact .panic o h
  | send k _ ih => exact .send _ ih
  | other o a k h _ ih => exact .other _ _ _ h ih

theorem Owes.of_all {α : Type} {p : Prog α} (o : Bool) (hpan : pan) (hp : p.All (fun a => ∀ b', a ≠ .note (.sent b'))) :
    Owes pan rt q b (fun _ o' => o' = o) o p := by
  induction p with
  | ret a => exact .ret _ _ rfl
  | panic => exact .panic _ hpan
  | act a k ih => exact .other _ _ _ hp.1 (fun r _ => ih r (hp.2 r))

theorem Owes.routerType (json : JSONCodec) (f : Bytes) (o : Bool) (hs : declaredHeaderLen f < 2^31 - 16) (ht : headerType json f = rt) :
    Owes pan rt q b (fun s o' => s = rt ∧ o' = o) o (Tcpx.routerType json f) := by
  refine .other _ _ _ (by simp) (fun c hc => ?_)
  rcases hc.1 rfl with rfl | rfl
  · simp only [Prog.bind, routerTypeWith_header json f hs none rfl, ht]
    exact .other _ _ _ (by simp) (fun _ _ => .other _ _ _ (by simp) (fun _ _ => .ret _ _ ⟨rfl, rfl⟩))
  · simp only [Prog.bind, routerTypeWith, Option.bind_some, Any.asString]
    exact .other _ _ _ (by simp) (fun _ _ => .ret _ _ ⟨rfl, rfl⟩)

theorem Owes.getURLPattern (json : JSONCodec) (f : Bytes) (o : Bool) (hq : urlPatternOf json { live := f } = q)
    (hpan : pan ∨ ∃ p, q = .ok p) : Owes pan rt q b (fun r o' => r = q ∧ o' = o) o (Tcpx.getURLPattern json f) := by
  refine .other _ _ _ (by simp) (fun c hc => ?_)
  rcases hc.2 rfl with rfl | ⟨p, hp, rfl⟩
  · simp only [Prog.bind, Option.bind_none, hq]
    cases q with
    | ok p => exact .other _ _ _ (by simp) (fun _ _ => .other _ _ _ (by simp) (fun _ _ => .ret _ _ ⟨rfl, rfl⟩))
    | err e => exact .other _ _ _ (by simp) (fun _ _ => .ret _ _ ⟨rfl, rfl⟩)
    | panic => exact .panic _ (hpan.resolve_right (by rintro ⟨p, h⟩; cases h))
    | block => exact .panic _ (hpan.resolve_right (by rintro ⟨p, h⟩; cases h))
  · simp only [Prog.bind, Option.bind_some, Any.asString]
    exact .other _ _ _ (by simp) (fun _ _ => .ret _ _ ⟨hp.symm, rfl⟩)

theorem Owes.call (json : JSONCodec) (f : Bytes) (o : Bool) (hq : urlPatternOf json { live := f } = q) (c : Call)
    (hc : ∀ b', c ≠ .send b') (hpan : pan ∨ (c = .urlPattern ∧ ∃ p, q = .ok p)) :
    Owes pan rt q b (fun r o' => (c = .urlPattern → r = .pattern q) ∧ o' = o) o (c.run json f) := by
  by_cases hu : c = .urlPattern
  · subst hu
    refine Owes.bind (Owes.getURLPattern json f o hq (hpan.imp id (·.2))) ?_
    rintro r o' ⟨rfl, rfl⟩
    exact .ret _ _ ⟨fun _ => rfl, rfl⟩
  · have hpan : pan := hpan.resolve_right (fun h => hu h.1)
    have weaken : ∀ {p : Prog CallRes}, Owes pan rt q b (fun _ o' => o' = o) o p →
        Owes pan rt q b (fun r o' => (c = .urlPattern → r = .pattern q) ∧ o' = o) o p := by
      intro p h
      have hb : ∀ p : Prog CallRes, p.bind Prog.ret = p := by
        intro p; induction p with
        | ret a => rfl
        | panic => rfl
        | act a k ih => simp only [Prog.bind, ih]
      have := h.bind (f := Prog.ret) (post' := fun r o' => (c = .urlPattern → r = .pattern q) ∧ o' = o)
        (fun a o' h => .ret _ _ ⟨fun h => absurd h hu, h⟩)
      rwa [hb] at this
    refine weaken (Owes.of_all o hpan ?_)
    cases c with
    | setConn k v =>
      refine Prog.All.bind ?_ (fun _ => trivial)
      cases k with
      | str s =>
        simp only [setCtxPerConn]
        split
        · trivial
        · exact ⟨by simp, fun _ => trivial⟩
      | other n => exact ⟨by simp, fun _ => trivial⟩
    | getConn k => exact ⟨by simp, fun _ => trivial⟩
    | setReq k v => exact ⟨by simp, fun _ => trivial⟩
    | getReq k => exact ⟨by simp, fun _ => trivial⟩
    | setUsername u => exact ⟨by simp, fun _ => trivial⟩
    | username =>
      refine Prog.All.bind ?_ (fun _ => trivial)
      refine ⟨by simp, fun r => ?_⟩
      simp only [Prog.bind]
      split
      · exact ⟨by simp, fun _ => trivial⟩
      · split
        · trivial
        · exact ⟨by simp, fun _ => trivial⟩
    | routerType => exact Prog.All.bind (routerType_all json f _ (by simp) (by simp) (by simp)) (fun _ => trivial)
    | urlPattern => exact absurd rfl hu
    | send b' => exact absurd rfl (hc b')

theorem Owes.code (json : JSONCodec) (f : Bytes) (hq : urlPatternOf json { live := f } = q) (hpan : pan) {o : Bool} {u : Code}
    (h : Replies q b o u) : Owes pan rt q b (fun _ o => o = false) o (u.run json f) := by
  induction h with
  | done => exact .ret _ _ rfl
  | panic o => exact .panic _ hpan
  | send k _ ih => exact .send _ (fun r => ih _)
  | other o c k hc _ ih =>
    refine Owes.bind (Owes.call json f o hq c hc (.inl hpan)) ?_
    rintro r o' ⟨h, rfl⟩
    exact ih r h

/-- A request that is dispatched to some handlers. -/
theorem Owes.runDispatch (json : JSONCodec) (f : Bytes) (code : Dispatch → Code) (d : Dispatch) (hd : d ≠ .nothing)
    (hdp : pan ∨ d ≠ .panic) (o : Bool) (hc : Owes pan rt q b (fun _ o => o = false) o ((code d).run json f)) :
    Owes pan rt q b (fun _ o => o = false) o (runDispatch json f code d) := by
  refine .other _ _ _ (by simp) (fun _ _ => ?_)
  cases d with
  | nothing => exact absurd rfl hd
  | panic => exact .panic _ (hdp.resolve_right (fun h => h rfl))
  | direct h => exact hc
  | chain hs =>
    show Owes pan rt q b _ o (Prog.bind ((code (.chain hs)).run json f) _)
    refine hc.bind (fun _ o ho => ?_)
    exact .other _ _ _ (by simp) (fun _ _ => .ret _ _ ho)

theorem Owes.request (s : Srv) (json : JSONCodec) (f : Bytes) (code : Dispatch → Code) (r : Srv.Routed) (hr : RoutedOf json f r)
    (hs : declaredHeaderLen f < 2^31 - 16) (ht : headerType json f = rt) (hd : s.handle r ≠ .nothing) (hdp : pan ∨ s.handle r ≠ .panic)
    (o : Bool) (hc : Owes pan rt q b (fun _ o => o = false) o ((code (s.handle r)).run json f)) :
    Owes pan rt q b (fun _ o => o = false) o (request s json f code) := by
  unfold Tcpx.request
  cases hno : s.onMessage with
  | some g =>
    have : s.handle r = s.dispatchOnMessage g := by simp [Srv.handle, hno]
    rw [this] at hc hd hdp
    exact .runDispatch _ _ _ _ hd hdp _ hc
  | none =>
    refine Owes.bind (Owes.routerType json f _ hs ht) ?_
    rintro _ _ ⟨rfl, rfl⟩
    have hne : URLPATTERN ≠ MESSAGEID := by decide
    rcases routed_eq s json f r hr hno with ⟨h1, h2⟩ | ⟨h1, h2⟩ | ⟨h1, h2, h3⟩
    · rw [if_pos (ht ▸ h1), h2]
      exact .runDispatch _ _ _ _ hd hdp _ hc
    · rw [if_neg (by rw [← ht, h1]; exact hne)]
      refine Owes.bind (Owes.routerType json f _ hs ht) ?_
      rintro _ _ ⟨rfl, rfl⟩
      rw [if_pos (ht ▸ h1), h2]
      exact .runDispatch _ _ _ _ hd hdp _ hc
    · exact absurd h3.symm hd

end Owes

theorem sentBy_cons_other {i : Nat} {e : Event} {tr : List Event} (h : e.tid ≠ i ∨ ∀ b, e.action ≠ .note (.sent b)) :
    sentBy i (e :: tr) = sentBy i tr := by
  unfold sentBy
  rw [List.filterMap_cons]
  by_cases hi : e.tid = i
  · rw [if_pos hi]
    cases ha : e.action with
    | note n =>
      cases n with
      | sent b => rcases h with h | h
                  · exact absurd hi h
                  · exact absurd ha (h b)
      | _ => rfl
    | _ => rfl
  · rw [if_neg hi]

/-- What is left to send and what has been sent. -/
def SendState (pan : Prop) (rt : String) (q : Res String) (b : Bytes) (owed : Bool) (i : Nat) (y : Sys) : Prop :=
  ∃ o, Owes pan rt q b (fun _ o => o = false) o (y.threads i).prog ∧ (o = true → owed = true) ∧
    sentBy i y.trace = if owed = true ∧ o = false then [b] else []

theorem sendState_next (arr : Nat → Arrival) {pan : Prop} {rt : String} {q : Res String} {b : Bytes} {owed : Bool} (i : Nat) (y : Sys) (j : Nat)
    (a : Action) (k : Option Any → Prog Unit) (p : Ptrs) (hp : (y.threads j).prog = .act a k) (h : SendState pan rt q b owed i y)
    (h1 : y.mem (scope arr i) routerTypeKey = none ∨ y.mem (scope arr i) routerTypeKey = some (.str rt))
    (h2 : y.mem (scope arr i) urlPatternKey = none ∨ ∃ p, q = .ok p ∧ y.mem (scope arr i) urlPatternKey = some (.str p)) :
    SendState pan rt q b owed i (y.next arr j a k p) := by
  obtain ⟨o, ho, hw, hs⟩ := h
  by_cases hj : j = i
  · subst hj
    unfold SendState
    simp only [Sys.next, if_true]
    rw [hp] at ho
    cases ho with
    | send k hk =>
      refine ⟨false, hk _, (by simp), ?_⟩
      simp only [sentBy] at hs ⊢
      simp [hs, hw rfl]
    | other o a k ha hk =>
      refine ⟨o, hk _ ⟨?_, ?_⟩, hw, ?_⟩
      · rintro rfl; exact h1
      · rintro rfl; exact h2
      · rw [sentBy_cons_other (.inr (fun b' => ha b')), hs]
  · unfold SendState
    simp only [Sys.next, if_neg (Ne.symm hj)]
    rw [sentBy_cons_other (.inl hj)]
    exact ⟨o, ho, hw, hs⟩

theorem scope_conn (arr : Nat → Arrival) (c j : Nat) : scope arr j = .conn c ↔ (arr j).tcp = some c := by
  unfold scope
  cases (arr j).tcp <;> simp

theorem avoids_mono {bad bad' : Call → Prop} (h : ∀ c, bad' c → bad c) {u : Code} (hu : Avoids bad u) : Avoids bad' u := by
  induction hu with
  | done => exact .done
  | panic => exact .panic
  | call c k hc _ ih => exact .call c k (fun hb => hc (h c hb)) ih

/-- Along every schedule a request of a scope whose requests are alike has sent its answer once, or has still to send it. -/
theorem sendState_scope (s : Srv) (json : JSONCodec) (arr : Nat → Arrival) (st : StoreId) {pan : Prop} {rt : String} {q : Res String}
    (hal : ∀ j, scope arr j = st → declaredHeaderLen (arr j).stream < 2^31 - 16 ∧ headerType json (arr j).stream = rt ∧
      urlPatternOf json { live := (arr j).stream } = q ∧
      ∀ d, Avoids (fun x => StoresKey (.str "router_type") x ∨ StoresKey (.str "url_pattern") x) ((arr j).code d))
    (i : Nat) (hsci : scope arr i = st) (b : Bytes) (owed : Bool)
    (h0 : Owes pan rt q b (fun _ o => o = false) owed (request s json (arr i).stream (arr i).code)) (sched : List Nat) :
    SendState pan rt q b owed i ((Sys.start s json arr).run sched) := by
  refine ((run_induct arr (fun y => SendState pan rt q b owed i y ∧ KeepsScope arr st routerTypeKey (· = .str rt) (fun _ => True) y ∧
      KeepsScope arr st urlPatternKey (fun v => ∃ p, q = .ok p ∧ v = .str p) (fun n => ∀ r, n = .pattern r → r = q) y) _
      (start_good s json arr) ⟨⟨owed, h0, id, by cases owed <;> rfl⟩, keepsScope_start s json arr _ ?_, keepsScope_start s json arr _ ?_⟩ ?_ sched).1).1
  · intro j hj
    have := request_keeps_routerType s json (arr j).stream (arr j).code (hal j hj).1 (fun d => avoids_mono (fun _ h => .inl h) ((hal j hj).2.2.2 d))
    rwa [(hal j hj).2.1] at this
  · intro j hj
    exact request_keeps_pattern s json (arr j).stream (arr j).code q (hal j hj).2.2.1
      (fun d => avoids_mono (fun _ h => .inr h) ((hal j hj).2.2.2 d))
  · intro y j a k p _ ⟨h1, h2, h3⟩ hp
    refine ⟨sendState_next arr i y j a k p hp h1 ?_ ?_, keepsScope_next arr _ y j a k p h2 hp, keepsScope_next arr _ y j a k p h3 hp⟩
    · rw [hsci]
      cases hm : y.mem st routerTypeKey with
      | none => exact .inl rfl
      | some v => exact .inr (by rw [h2.2.1 v hm])
    · rw [hsci]
      cases hm : y.mem st urlPatternKey with
      | none => exact .inl rfl
      | some v =>
        obtain ⟨p, hp, rfl⟩ := h3.2.1 v hm
        exact .inr ⟨p, hp, rfl⟩

/-- Along every schedule a request of an `Alike` connection has sent its answer once, or has still to send it. -/
theorem sendState_run (s : Srv) (json : JSONCodec) (arr : Nat → Arrival) (c : Nat) {pan : Prop} {rt : String} {q : Res String}
    (hal : Alike json arr c rt q) (i : Nat) (hi : (arr i).tcp = some c) (b : Bytes) (owed : Bool)
    (h0 : Owes pan rt q b (fun _ o => o = false) owed (request s json (arr i).stream (arr i).code)) (sched : List Nat) :
    SendState pan rt q b owed i ((Sys.start s json arr).run sched) :=
  sendState_scope s json arr (.conn c) (fun j hj => by
    have hj := (scope_conn arr c j).1 hj
    exact ⟨hal.small j hj, hal.type j hj, hal.pattern j hj, hal.code j hj⟩) i ((scope_conn arr c i).2 hi) b owed h0 sched

/-- The same for the request of a datagram, whatever else is handled. -/
theorem sendState_own (s : Srv) (json : JSONCodec) (arr : Nat → Arrival) {pan : Prop} (i : Nat) (hi : (arr i).tcp = none)
    (hsm : declaredHeaderLen (arr i).stream < 2^31 - 16)
    (hc : ∀ d, Avoids (fun x => StoresKey (.str "router_type") x ∨ StoresKey (.str "url_pattern") x) ((arr i).code d))
    (b : Bytes) (owed : Bool)
    (h0 : Owes pan (headerType json (arr i).stream) (urlPatternOf json { live := (arr i).stream }) b (fun _ o => o = false) owed
      (request s json (arr i).stream (arr i).code)) (sched : List Nat) :
    SendState pan (headerType json (arr i).stream) (urlPatternOf json { live := (arr i).stream }) b owed i
      ((Sys.start s json arr).run sched) := by
  have hown : ∀ j, scope arr j = .own i → j = i := by
    intro j hj
    unfold scope at hj
    split at hj
    · cases hj
    · injection hj
  refine sendState_scope s json arr (.own i) (fun j hj => ?_) i (by simp [scope, hi]) b owed h0 sched
  obtain rfl := hown j hj
  exact ⟨hsm, rfl, rfl, hc⟩

/-! ## All requests of a connection -/

/-- The requests that have sent something over connection `c`, with what they sent, newest first. -/
def sentWith (arr : Nat → Arrival) (c : Nat) (tr : List Event) : List (Nat × Bytes) :=
  tr.filterMap fun e => if (arr e.tid).tcp = some c then
    match e.action with
    | .note (.sent b) => some (e.tid, b)
    | _ => none
    else none

theorem sentOn_eq (arr : Nat → Arrival) (c : Nat) (tr : List Event) : sentOn arr c tr = ((sentWith arr c tr).map (·.2)).reverse := by
  unfold sentOn sentWith
  congr 1
  induction tr with
  | nil => rfl
  | cons e tr ih =>
    rw [List.filterMap_cons, List.filterMap_cons]
    by_cases h : (arr e.tid).tcp = some c
    · rw [if_pos h, if_pos h]
      cases ha : e.action with
      | note n =>
        cases n with
        | sent b => simp [ih]
        | _ => simpa using ih
      | _ => simpa using ih
    · rw [if_neg h, if_neg h]
      exact ih

theorem sentBy_eq (arr : Nat → Arrival) (c i : Nat) (hi : (arr i).tcp = some c) (tr : List Event) :
    sentBy i tr = ((sentWith arr c tr).filter (·.1 = i)).map (·.2) := by
  unfold sentBy sentWith
  induction tr with
  | nil => rfl
  | cons e tr ih =>
    rw [List.filterMap_cons, List.filterMap_cons]
    by_cases he : e.tid = i
    · rw [if_pos he, if_pos (by rw [he]; exact hi)]
      cases ha : e.action with
      | note n =>
        cases n with
        | sent b => simp [ih, he]
        | _ => simpa using ih
      | _ => simpa using ih
    · rw [if_neg he]
      by_cases h : (arr e.tid).tcp = some c
      · rw [if_pos h]
        cases ha : e.action with
        | note n =>
          cases n with
          | sent b => simp [ih, he]
          | _ => simpa using ih
        | _ => simpa using ih
      · rw [if_neg h]
        exact ih

theorem sentWith_tcp {arr : Nat → Arrival} {c : Nat} {tr : List Event} {x : Nat × Bytes} (h : x ∈ sentWith arr c tr) :
    (arr x.1).tcp = some c := by
  unfold sentWith at h
  obtain ⟨e, _, he⟩ := List.mem_filterMap.1 h
  split at he
  · rename_i ht
    split at he
    · cases he; exact ht
    · cases he
  · cases he

theorem nodup_of_filter {l : List (Nat × Bytes)} (h : ∀ i, (l.filter (·.1 = i)).length ≤ 1) : (l.map (·.1)).Nodup := by
  induction l with
  | nil => exact .nil
  | cons x l ih =>
    rw [List.map_cons, List.nodup_cons]
    constructor
    · intro hx
      obtain ⟨y, hy, hyx⟩ := List.mem_map.1 hx
      have := h x.1
      rw [List.filter_cons_of_pos (by simp)] at this
      have h2 : y ∈ l.filter (·.1 = x.1) := List.mem_filter.2 ⟨hy, by simp [hyx]⟩
      have := List.length_pos_of_mem h2
      simp only [List.length_cons] at *
      omega
    · refine ih (fun i => ?_)
      have := h i
      rw [List.filter_cons] at this
      split at this
      · simp only [List.length_cons] at this; omega
      · exact this

/-- Scheduling one request often enough brings it to its end, and leaves the others where they are. -/
theorem finishes (y : Sys) (i : Nat) : ∃ n, ((y.run (List.replicate n i)).threads i).prog.Stopped ∧
    ∀ j, j ≠ i → (y.run (List.replicate n i)).threads j = y.threads j := by
  generalize hp : (y.threads i).prog = p
  induction p generalizing y with
  | ret a =>
    refine ⟨0, ?_, fun _ _ => rfl⟩
    show (y.threads i).prog.Stopped
    rw [hp]
    first | trivial | (intro a k h; cases h)
  | panic =>
    refine ⟨0, ?_, fun _ _ => rfl⟩
    show (y.threads i).prog.Stopped
    rw [hp]
    first | trivial | (intro a k h; cases h)
  | act a k ih =>
    cases he : a.effect i y.mem (y.threads i).ptrs with
    | none =>
      refine ⟨1, ?_, ?_⟩
      · simp only [Sys.run, List.replicate_succ, List.replicate_zero, List.foldl_cons, List.foldl_nil, Sys.step, hp, he, if_true]
        intro a k h; cases h
      · intro j hj
        simp only [Sys.run, List.replicate_succ, List.replicate_zero, List.foldl_cons, List.foldl_nil, Sys.step, hp, he, if_neg hj]
    | some t =>
      obtain ⟨r, m, ptr⟩ := t
      obtain ⟨n, h1, h2⟩ := ih r (y.step i) (by simp only [Sys.step, hp, he, if_true])
      refine ⟨n + 1, ?_, ?_⟩
      · rw [List.replicate_succ]; exact h1
      · intro j hj
        rw [List.replicate_succ]
        refine (h2 j hj).trans ?_
        simp only [Sys.step, hp, he, if_neg hj]

theorem Sys.run_append (y : Sys) (a b : List Nat) : y.run (a ++ b) = (y.run a).run b := List.foldl_append

/-- Any number of requests can be brought to their end. -/
theorem finish_all (y : Sys) (n : Nat) : ∃ sched, ∀ i < n, ((y.run sched).threads i).prog.Stopped := by
  induction n with
  | zero => exact ⟨[], fun i h => absurd h (by omega)⟩
  | succ n ih =>
    obtain ⟨sched, hs⟩ := ih
    obtain ⟨m, h1, h2⟩ := finishes (y.run sched) n
    refine ⟨sched ++ List.replicate m n, fun i hi => ?_⟩
    rw [Sys.run_append]
    by_cases hin : i = n
    · subst hin; exact h1
    · rw [h2 i hin]; exact hs i (by omega)

end Tcpx
