import Verif.Spec.Requests
import Verif.Lemmas.Pipe
import Verif.Lemmas.Codec
/-! # Lemmas about concurrently running requests -/
namespace Tcpx
open Spec

/-! ## Programs -/

/-- Every action in the tree satisfies `P`. -/
def Prog.All {α : Type} (P : Action → Prop) : Prog α → Prop
  | .ret _ => True
  | .panic => True
  | .act a k => P a ∧ ∀ r, (k r).All P

theorem Prog.All.bind {α β : Type} {P : Action → Prop} {p : Prog α} {f : α → Prog β} (hp : p.All P) (hf : ∀ a, (f a).All P) :
    (p.bind f).All P := by
  induction p with
  | ret a => exact hf a
  | panic => trivial
  | act a k ih => exact ⟨hp.1, fun r => ih r (hp.2 r)⟩

theorem Prog.All.mono {α : Type} {P Q : Action → Prop} (h : ∀ a, P a → Q a) {p : Prog α} (hp : p.All P) : p.All Q := by
  induction p with
  | ret a => trivial
  | panic => trivial
  | act a k ih => exact ⟨h _ hp.1, fun r => ih r (hp.2 r)⟩

/-- No action left. -/
def Prog.Stopped {α : Type} (p : Prog α) : Prop := ∀ a k, p ≠ .act a k

/-- `reset` is the last action. -/
def Prog.ResetLast {α : Type} : Prog α → Prop
  | .ret _ => True
  | .panic => True
  | .act a k => (a = .reset → ∀ r, (k r).Stopped) ∧ ∀ r, (k r).ResetLast

theorem Prog.resetLast_bind {α β : Type} {p : Prog α} {f : α → Prog β} (hp : p.All (· ≠ .reset)) (hf : ∀ a, (f a).ResetLast) :
    (p.bind f).ResetLast := by
  induction p with
  | ret a => exact hf a
  | panic => trivial
  | act a k ih => exact ⟨fun h => absurd h hp.1, fun r => ih r (hp.2 r)⟩

/-- Actions the methods of `Context` may perform. -/
def Call.may (c : Call) (a : Action) : Prop :=
  match a with
  | .reset => False
  | .note (.dispatch _) => False
  | .note _ => True
  | .getConn _ => True
  | .getReq _ => True
  | .setConn .user k v => c = .setConn k v ∧ ∀ s, k = .str s → ¬ "tcpx-".toList <+: s.toList
  | .setConn .framework k v => k = usernameKey ∧ ∃ u, v = .str u ∧ c = .setUsername u
  | .setReq k v => c = .setReq k v ∨ (k = routerTypeKey ∧ c = .routerType) ∨ (k = urlPatternKey ∧ c = .urlPattern)

theorem routerType_all (json : JSONCodec) (f : Bytes) (P : Action → Prop) (h1 : P (.getReq routerTypeKey))
    (h2 : ∀ v, P (.setReq routerTypeKey v)) (h3 : ∀ s, P (.note (.routerType s))) : (routerType json f).All P := by
  refine ⟨h1, fun c => ?_⟩
  simp only [Prog.bind]
  split
  · split
    · exact ⟨h3 _, fun _ => trivial⟩
    · exact ⟨h2 _, fun _ => ⟨h3 _, fun _ => trivial⟩⟩
  · trivial

theorem getURLPattern_all (json : JSONCodec) (f : Bytes) (P : Action → Prop) (h1 : P (.getReq urlPatternKey))
    (h2 : ∀ v, P (.setReq urlPatternKey v)) (h3 : ∀ s, P (.note (.pattern s))) : (getURLPattern json f).All P := by
  refine ⟨h1, fun c => ?_⟩
  simp only [Prog.bind]
  split
  · exact ⟨h3 _, fun _ => trivial⟩
  · split
    · exact ⟨h2 _, fun _ => ⟨h3 _, fun _ => trivial⟩⟩
    · exact ⟨h3 _, fun _ => trivial⟩
    · trivial

theorem Call.run_may (json : JSONCodec) (f : Bytes) (c : Call) : (c.run json f).All c.may := by
  cases c with
  | setConn k v =>
    refine Prog.All.bind ?_ (fun _ => trivial)
    cases k with
    | str s =>
      simp only [setCtxPerConn]
      split
      · trivial
      · rename_i h
        refine ⟨⟨rfl, ?_⟩, fun _ => trivial⟩
        intro s' hs' hp
        cases hs'
        exact h (List.isPrefixOf_iff_prefix.2 hp)
    | other n => exact ⟨⟨rfl, fun s hs => by cases hs⟩, fun _ => trivial⟩
  | getConn k => exact ⟨trivial, fun _ => trivial⟩
  | setReq k v => exact ⟨.inl rfl, fun _ => trivial⟩
  | getReq k => exact ⟨trivial, fun _ => trivial⟩
  | setUsername u => exact ⟨⟨rfl, u, rfl, rfl⟩, fun _ => trivial⟩
  | username =>
    refine Prog.All.bind ?_ (fun _ => trivial)
    refine ⟨trivial, fun r => ?_⟩
    simp only [Prog.bind]
    split
    · exact ⟨trivial, fun _ => trivial⟩
    · split
      · trivial
      · exact ⟨trivial, fun _ => trivial⟩
  | routerType =>
    exact Prog.All.bind (routerType_all json f _ trivial (fun _ => .inr (.inl ⟨rfl, rfl⟩)) (fun _ => trivial)) (fun _ => trivial)
  | urlPattern =>
    exact Prog.All.bind (getURLPattern_all json f _ trivial (fun _ => .inr (.inr ⟨rfl, rfl⟩)) (fun _ => trivial)) (fun _ => trivial)
  | send b => exact ⟨trivial, fun _ => trivial⟩

theorem Code.run_all (json : JSONCodec) (f : Bytes) (P : Action → Prop) (bad : Call → Prop) (u : Code) (hu : Avoids bad u)
    (h : ∀ c a, ¬ bad c → c.may a → P a) : (u.run json f).All P := by
  induction hu with
  | done => trivial
  | panic => trivial
  | call c k hc _ ih => exact Prog.All.bind (Prog.All.mono (h c · hc) (c.run_may json f)) ih

theorem avoids_false (u : Code) : Avoids (fun _ => False) u := by
  induction u with
  | done => exact .done
  | panic => exact .panic
  | call c k ih => exact .call c k (fun h => h) ih

/-- All actions of the handlers. -/
theorem Code.run_plain (json : JSONCodec) (f : Bytes) (u : Code) :
    (u.run json f).All (fun a => a ≠ .reset ∧ ∀ d, a ≠ .note (.dispatch d)) :=
  Code.run_all json f _ _ u (avoids_false u) (by
    intro c a _ ha
    refine ⟨?_, fun d => ?_⟩ <;> rintro rfl <;> exact ha)

theorem runDispatch_resetLast (json : JSONCodec) (f : Bytes) (code : Dispatch → Code) (d : Dispatch) :
    (runDispatch json f code d).ResetLast := by
  refine ⟨fun h => (by cases h), fun _ => ?_⟩
  cases d with
  | nothing => trivial
  | panic => trivial
  | direct h =>
    have := Prog.resetLast_bind (f := fun _ : Unit => Prog.ret ()) (((code (.direct h)).run_plain json f).mono (fun _ h => h.1))
      (fun _ => trivial)
    have hb : ∀ p : Prog Unit, p.bind (fun _ => Prog.ret ()) = p := by
      intro p; induction p with
      | ret a => rfl
      | panic => rfl
      | act a k ih => simp only [Prog.bind, ih]
    rw [hb] at this
    exact this
  | chain hs =>
    show (Prog.bind ((code (.chain hs)).run json f) _).ResetLast
    refine Prog.resetLast_bind (((code (.chain hs)).run_plain json f).mono (fun _ h => h.1)) (fun _ => ?_)
    exact ⟨fun _ r => (by intro a k h; cases h), fun _ => trivial⟩

theorem request_resetLast (s : Srv) (json : JSONCodec) (f : Bytes) (code : Dispatch → Code) : (request s json f code).ResetLast := by
  have hr : (routerType json f).All (· ≠ .reset) := routerType_all json f _ (by simp) (by simp) (by simp)
  unfold request
  cases s.onMessage with
  | some g => exact runDispatch_resetLast _ _ _ _
  | none =>
    refine Prog.resetLast_bind hr (fun rt => ?_)
    split
    · exact runDispatch_resetLast _ _ _ _
    · refine Prog.resetLast_bind hr (fun rt => ?_)
      split
      · exact runDispatch_resetLast _ _ _ _
      · exact Prog.resetLast_bind hr (fun rt => runDispatch_resetLast _ _ _ _)

/-! ## Steps -/

/-- The initial pointers of request `i`. -/
def initPtrs (arr : Nat → Arrival) (i : Nat) : Ptrs :=
  match (arr i).tcp with
  | some c => tcpPtrs c
  | none => udpPtrs i

theorem initPtrs_req (arr : Nat → Arrival) (i : Nat) : (initPtrs arr i).req = scope arr i := by
  unfold initPtrs scope; cases (arr i).tcp <;> rfl

theorem initPtrs_conn (arr : Nat → Arrival) (i : Nat) : connStore (initPtrs arr i) = some (scope arr i) := by
  unfold initPtrs scope; cases (arr i).tcp <;> rfl

def Action.result (st : StoreId) (m : Mem) : Action → Option Any
  | .getReq k => m st k
  | .getConn k => m st k
  | _ => none

def Action.memEffect (st : StoreId) (m : Mem) : Action → Mem
  | .setReq k v => m.put st k v
  | .setConn _ k v => m.put st k v
  | _ => m

theorem effect_eq (arr : Nat → Arrival) (i : Nat) (m : Mem) (a : Action) :
    ∃ p, a.effect i m (initPtrs arr i) = some (a.result (scope arr i) m, a.memEffect (scope arr i) m, p) ∧
      (a ≠ .reset → p = initPtrs arr i) := by
  cases a <;> simp only [Action.effect, initPtrs_conn, initPtrs_req, Option.map_some, Action.result, Action.memEffect]
  case reset => exact ⟨_, rfl, fun h => absurd rfl h⟩
  all_goals exact ⟨_, rfl, fun _ => rfl⟩

/-- The state after request `i` has performed `a`. -/
def Sys.next (arr : Nat → Arrival) (y : Sys) (i : Nat) (a : Action) (k : Option Any → Prog Unit) (p : Ptrs) : Sys :=
  { mem := a.memEffect (scope arr i) y.mem
    threads := fun j => if j = i then ⟨p, k (a.result (scope arr i) y.mem)⟩ else y.threads j
    trace := ⟨i, initPtrs arr i, a, a.result (scope arr i) y.mem⟩ :: y.trace }

/-- Every request still has its initial pointers as long as it has something to do. -/
def Good (arr : Nat → Arrival) (y : Sys) : Prop :=
  ∀ i, ((y.threads i).ptrs = initPtrs arr i ∧ (y.threads i).prog.ResetLast) ∨ (y.threads i).prog.Stopped

theorem step_cases (arr : Nat → Arrival) (y : Sys) (hg : Good arr y) (i : Nat) :
    ((y.threads i).prog.Stopped ∧ y.step i = y) ∨
    ∃ a k p, (y.threads i).prog = .act a k ∧ y.step i = y.next arr i a k p ∧ Good arr (y.next arr i a k p) := by
  unfold Sys.step
  cases hp : (y.threads i).prog with
  | ret a => exact .inl ⟨fun _ _ h => (by cases h), rfl⟩
  | panic => exact .inl ⟨fun _ _ h => (by cases h), rfl⟩
  | act a k =>
    right
    rcases hg i with ⟨h1, h2⟩ | h
    · obtain ⟨p, he, hpp⟩ := effect_eq arr i y.mem a
      refine ⟨a, k, p, rfl, ?_, ?_⟩
      · simp only [h1, he]
        rfl
      · intro j
        by_cases hj : j = i
        · subst hj
          simp only [Sys.next, if_true]
          rw [hp] at h2
          by_cases hr : a = .reset
          · exact .inr (h2.1 hr _)
          · exact .inl ⟨hpp hr, h2.2 _⟩
        · have := hg j
          simp only [Sys.next, if_neg hj]
          exact this
    · exact absurd hp (h a k)

theorem start_good (s : Srv) (json : JSONCodec) (arr : Nat → Arrival) : Good arr (Sys.start s json arr) :=
  fun _ => .inl ⟨rfl, request_resetLast _ _ _ _⟩

/-- Induction over executions. -/
theorem run_induct (arr : Nat → Arrival) (P : Sys → Prop) (y : Sys) (hg : Good arr y) (h0 : P y)
    (hs : ∀ y i a k p, Good arr y → P y → (y.threads i).prog = .act a k → P (y.next arr i a k p)) (sched : List Nat) :
    P (y.run sched) ∧ Good arr (y.run sched) := by
  induction sched generalizing y with
  | nil => exact ⟨h0, hg⟩
  | cons i sched ih =>
    simp only [Sys.run, List.foldl_cons]
    rcases step_cases arr y hg i with ⟨_, h⟩ | ⟨a, k, p, h1, h2, h3⟩
    · rw [h]; exact ih y hg h0
    · rw [h2]; exact ih _ h3 (hs y i a k p hg h0 h1)

/-! ## Memory -/

/-- `P` holds of every event together with the events before it. -/
def EveryEvent (P : Event → List Event → Prop) : List Event → Prop
  | [] => True
  | e :: es => P e es ∧ EveryEvent P es

theorem EveryEvent.of_mem {P : Event → List Event → Prop} {tr : List Event} (h : EveryEvent P tr) (e : Event) (newer older : List Event)
    (ht : tr = newer ++ e :: older) : P e older := by
  subst ht
  induction newer with
  | nil => exact h.1
  | cons x xs ih => exact ih h.2

theorem EveryEvent.imp {P Q : Event → List Event → Prop} {tr : List Event} (hpq : ∀ e es, P e es → Q e es) (h : EveryEvent P tr) :
    EveryEvent Q tr := by
  induction tr with
  | nil => trivial
  | cons e es ih => exact ⟨hpq _ _ h.1, ih h.2⟩

def inScope (arr : Nat → Arrival) (st : StoreId) (j : Nat) : Bool := decide (scope arr j = st)

/-- Reads return the last value stored by a request of the same scope. -/
def ReadsLast (arr : Nat → Arrival) (e : Event) (older : List Event) : Prop :=
  ∀ k, (e.action = .getReq k ∨ e.action = .getConn k) → e.result = lastSet (inScope arr (scope arr e.tid)) k older

theorem memory (s : Srv) (json : JSONCodec) (arr : Nat → Arrival) (sched : List Nat) :
    (∀ i k, ((Sys.start s json arr).run sched).mem (scope arr i) k =
      lastSet (inScope arr (scope arr i)) k ((Sys.start s json arr).run sched).trace) ∧
    EveryEvent (ReadsLast arr) ((Sys.start s json arr).run sched).trace := by
  refine (run_induct arr (fun y => (∀ i k, y.mem (scope arr i) k = lastSet (inScope arr (scope arr i)) k y.trace) ∧
    EveryEvent (ReadsLast arr) y.trace) _ (start_good s json arr) ⟨fun _ _ => rfl, trivial⟩ ?_ sched).1
  intro y i a k p _ ⟨h1, h2⟩ _
  refine ⟨?_, ?_, h2⟩
  · intro j q
    have hput : ∀ (q' : Key) (v : Any), (y.mem.put (scope arr i) q' v) (scope arr j) q =
        if inScope arr (scope arr j) i = true then (if q' = q then some v else lastSet (inScope arr (scope arr j)) q y.trace)
        else lastSet (inScope arr (scope arr j)) q y.trace := by
      intro q' v
      unfold Mem.put
      rw [h1]
      by_cases hs : scope arr i = scope arr j
      · by_cases hq : q' = q
        · rw [if_pos ⟨hs.symm, hq.symm⟩, if_pos (by simp [inScope, hs]), if_pos hq]
        · rw [if_neg (by intro h; exact hq h.2.symm), if_pos (by simp [inScope, hs]), if_neg hq]
      · rw [if_neg (by intro h; exact hs h.1.symm), if_neg (by simp [inScope, hs])]
    cases a with
    | setReq q' v => exact hput q' v
    | setConn w q' v => exact hput q' v
    | _ =>
      show y.mem (scope arr j) q = _
      rw [h1]
      simp only [Sys.next, lastSet, ite_self]
  · intro q hq
    simp only at hq ⊢
    rcases hq with rfl | rfl <;> exact h1 i q

/-! ## Where a message is routed -/

theorem routed_total (json : JSONCodec) (f : Bytes) : ∃ r, RoutedOf json f r := by
  by_cases h8 : 8 ≤ f.length
  · cases hf : frameHeader json f with
    | none => exact ⟨_, .noHeader hf h8⟩
    | some h =>
      by_cases hp : ∀ s, Header.get? h "Router-Type" = some (.str s) → s = "MESSAGE_ID"
      · exact ⟨_, .plain h hf hp h8⟩
      · have : ∃ s, Header.get? h "Router-Type" = some (.str s) ∧ s ≠ "MESSAGE_ID" := by
          apply Classical.byContradiction
          intro hn
          exact hp fun s hs => Classical.byContradiction fun hne => hn ⟨s, hs, hne⟩
        obtain ⟨s, hs, hne⟩ := this
        by_cases hu : s = "URL_PATTERN"
        · subst hu
          cases hv : Header.get? h "Router-Pattern-Value" with
          | none => exact ⟨_, .noPattern h hf hs hv⟩
          | some v =>
            by_cases hst : ∃ t, v = .str t
            · obtain ⟨t, rfl⟩ := hst; exact ⟨_, .url h t hf hs hv⟩
            · exact ⟨_, .badPattern h v hf hs hv (fun t ht => hst ⟨t, ht⟩)⟩
        · exact ⟨_, .otherType h s hf hs hne hu⟩
  · exact ⟨_, .noId (by omega)⟩

theorem headerOf_err (json : JSONCodec) (f : Bytes) (hs : declaredHeaderLen f < 2^31 - 16) (h : frameHeader json f = none) :
    ∃ e, headerOf json { live := f } = .err e := by
  unfold frameHeader at h
  have hb := headerBytesOf_small { live := f } hs
  generalize hn : declaredHeaderLen f = n at h hs
  simp only [Slice.len, hn] at hb
  by_cases hlen : f.length < 16 + n
  · rw [if_pos hlen] at hb
    simp only [headerOf, hb]; exact ⟨_, rfl⟩
  · rw [if_neg hlen] at hb
    rw [if_neg (by omega)] at h
    simp only [headerOf, hb, h]
    exact ⟨_, rfl⟩

theorem id_of_declared (f : Bytes) : (UInt32.ofNat (fieldAt f 4)).toInt32 = Int32.ofInt (declaredId f) := by
  apply int32_ext
  rw [toInt32_toInt _ (fieldAt_lt f 4), declaredId, Int32.toInt_ofInt]
  have hlt := fieldAt_lt f 4
  generalize fieldAt f 4 = n at hlt
  unfold signed32
  rw [Int.bmod_eq_of_le] <;> simp <;> split <;> omega

theorem header_len_zero {h : Header} (hl : Header.len h = 0) (k : String) : Header.get? h k = none := by
  cases h with
  | none => rfl
  | some m =>
    cases m with
    | nil => rfl
    | cons e m => simp [Header.len] at hl

theorem headerType_eq {json : JSONCodec} {f : Bytes} {o : Option Header} (h : frameHeader json f = o) :
    headerType json f = typeIn o := by rw [headerType, h]

theorem frameHeader_short {json : JSONCodec} {f : Bytes} (h : f.length < 16) : frameHeader json f = none := by
  unfold frameHeader
  rw [if_pos (.inl (by omega))]

theorem routerType_of_header (h : Header) :
    (if Header.len h = 0 then Res.ok MESSAGEID
      else match Header.get? h HEADER_ROUTER_KEY with
        | none => .ok MESSAGEID
        | some v =>
          match v.asString with
          | none => .ok MESSAGEID
          | some s => if s = MESSAGEID then .ok MESSAGEID else .ok s) = Res.ok (typeIn (some h)) := by
  show _ = Res.ok (match Header.get? h "Router-Type" with
    | some (.str s) => s
    | _ => "MESSAGE_ID")
  rw [show HEADER_ROUTER_KEY = "Router-Type" from rfl]
  by_cases hl : Header.len h = 0
  · rw [if_pos hl, header_len_zero hl]; rfl
  · rw [if_neg hl]
    generalize Header.get? h "Router-Type" = o
    cases o with
    | none => rfl
    | some v =>
      cases v with
      | str t =>
        simp only [Any.asString]
        by_cases ht : t = MESSAGEID
        · rw [if_pos ht, ht]
        · rw [if_neg ht]
      | _ => rfl

theorem routerTypeWith_header (json : JSONCodec) (f : Bytes) (hs : declaredHeaderLen f < 2^31 - 16) (c : Option Any)
    (hc : c.bind Any.asString = none) : routerTypeWith json c f = .ok (headerType json f) := by
  unfold routerTypeWith
  rw [hc]
  simp only
  cases hf : frameHeader json f with
  | none =>
    obtain ⟨e, he⟩ := headerOf_err json f hs hf
    rw [he, headerType_eq hf, ite_self]; rfl
  | some h =>
    have hne : f ≠ [] := by
      rintro rfl
      rw [frameHeader_short (by decide)] at hf
      cases hf
    rw [if_neg hne, headerOf_frame_some json f h hf, headerType_eq hf]
    exact routerType_of_header h

theorem pattern_of_header (h : Header) (ht : Header.get? h "Router-Type" = some (.str "URL_PATTERN")) :
    headerGetString h HEADER_ROUTER_VALUE = match Header.get? h "Router-Pattern-Value" with
      | none => .ok ("", false)
      | some v => match v.asString with
        | none => .err .notString
        | some s => .ok (s, true) := by
  have hl : Header.len h ≠ 0 := fun hl => by rw [header_len_zero hl] at ht; cases ht
  unfold headerGetString
  rw [if_neg hl]; rfl

/-- Where the code sends a message, given the router type it found, against where it should go. -/
theorem routed_eq (s : Srv) (json : JSONCodec) (f : Bytes) (r : Srv.Routed) (hr : RoutedOf json f r)
    (hno : s.onMessage = none) :
    (headerType json f = MESSAGEID ∧ handleMessageID s f = s.handle r) ∨
    (headerType json f = URLPATTERN ∧ handleURLPattern s json f = s.handle r) ∨
    (headerType json f ≠ MESSAGEID ∧ headerType json f ≠ URLPATTERN ∧ Dispatch.nothing = s.handle r) := by
  have hid : 8 ≤ f.length → handleMessageID s f = s.handle (.byId (Int32.ofInt (declaredId f))) := by
    intro h8
    unfold handleMessageID Srv.handle
    rw [messageIDOf_eq, if_neg (by simp only [Slice.len]; omega), hno, id_of_declared]
  have hurl : ∀ h, frameHeader json f = some h → Header.get? h "Router-Type" = some (.str "URL_PATTERN") →
      handleURLPattern s json f =
        match Header.get? h "Router-Pattern-Value" with
        | none => s.dispatchUrl ""
        | some v => match v.asString with
          | none => .nothing
          | some p => s.dispatchUrl p := by
    intro h hf ht
    unfold handleURLPattern urlPatternOf
    rw [headerOf_frame_some json f h hf]
    simp only [Res.bind_ok]
    rw [pattern_of_header h ht]
    generalize Header.get? h "Router-Pattern-Value" = o
    cases o with
    | none => rfl
    | some v => cases v <;> rfl
  have htype : ∀ h, frameHeader json f = some h → Header.get? h "Router-Type" = some (.str "URL_PATTERN") →
      headerType json f = URLPATTERN := by
    intro h hf ht
    rw [headerType_eq hf, typeIn, ht]; rfl
  cases hr with
  | noHeader h h8 => exact .inl ⟨by rw [headerType_eq h]; rfl, hid h8⟩
  | plain h hf hp h8 =>
    refine .inl ⟨?_, hid h8⟩
    rw [headerType_eq hf, typeIn]
    cases hg : Header.get? h "Router-Type" with
    | none => rfl
    | some v =>
      cases v with
      | str t => exact hp t hg
      | _ => rfl
  | noId h8 =>
    refine .inl ⟨?_, ?_⟩
    · rw [headerType_eq (frameHeader_short (by omega))]; rfl
    · unfold handleMessageID Srv.handle
      rw [messageIDOf_eq, if_pos (by simp only [Slice.len]; omega), hno]
  | url h p hf ht hv =>
    refine .inr (.inl ⟨htype h hf ht, ?_⟩)
    rw [hurl h hf ht, hv, Srv.handle, hno]; rfl
  | noPattern h hf ht hv =>
    refine .inr (.inl ⟨htype h hf ht, ?_⟩)
    rw [hurl h hf ht, hv, Srv.handle, hno]
  | badPattern h v hf ht hv hn =>
    refine .inr (.inl ⟨htype h hf ht, ?_⟩)
    rw [hurl h hf ht, hv, Srv.handle, hno]
    cases v with
    | str t => exact absurd rfl (hn t)
    | _ => rfl
  | otherType h t hf ht h1 h2 =>
    refine .inr (.inr ?_)
    have : headerType json f = t := by rw [headerType_eq hf, typeIn, ht]
    rw [this]
    exact ⟨h1, h2, by rw [Srv.handle, hno]⟩

/-! ## Dispatch among concurrent requests -/

/-- A request that has not been dispatched yet and will be dispatched as `d`, if what it finds under "router_type" is nothing (or
not a string) or `rt`. -/
inductive Pre (rt : String) (d : Dispatch) : Prog Unit → Prop where
  | get (k) : (∀ c, c.bind Any.asString = none ∨ c = some (.str rt) → Pre rt d (k c)) → Pre rt d (.act (.getReq routerTypeKey) k)
  | set (k) : (∀ c, Pre rt d (k c)) → Pre rt d (.act (.setReq routerTypeKey (.str rt)) k)
  | noted (k s) : (∀ c, Pre rt d (k c)) → Pre rt d (.act (.note (.routerType s)) k)
  | now (k) : (∀ c, (k c).All (fun a => ∀ d, a ≠ .note (.dispatch d))) → Pre rt d (.act (.note (.dispatch d)) k)

theorem Pre.routerType (rt : String) (d : Dispatch) (json : JSONCodec) (f : Bytes) (hs : declaredHeaderLen f < 2^31 - 16)
    (ht : headerType json f = rt) (g : String → Prog Unit) (hg : Pre rt d (g rt)) : Pre rt d ((routerType json f).bind g) := by
  refine .get _ (fun c hc => ?_)
  rcases hc with hc | rfl
  · simp only [Prog.bind, routerTypeWith_header json f hs c hc, hc, ht]
    exact .set _ (fun _ => .noted _ _ (fun _ => hg))
  · simp only [Prog.bind, routerTypeWith, Option.bind_some, Any.asString]
    exact .noted _ _ (fun _ => hg)

theorem Pre.runDispatch (rt : String) (json : JSONCodec) (f : Bytes) (code : Dispatch → Code) (d : Dispatch) :
    Pre rt d (runDispatch json f code d) := by
  refine .now _ (fun _ => ?_)
  cases d with
  | nothing => trivial
  | panic => trivial
  | direct h => exact ((code (.direct h)).run_plain json f).mono (fun _ h => h.2)
  | chain hs =>
    show (Prog.bind ((code (.chain hs)).run json f) _).All _
    refine Prog.All.bind (((code (.chain hs)).run_plain json f).mono (fun _ h => h.2)) (fun _ => ?_)
    exact ⟨by simp, fun _ => trivial⟩

theorem Pre.request (s : Srv) (json : JSONCodec) (f : Bytes) (code : Dispatch → Code) (r : Srv.Routed) (hr : RoutedOf json f r)
    (hs : declaredHeaderLen f < 2^31 - 16) : Pre (headerType json f) (s.handle r) (request s json f code) := by
  unfold Tcpx.request
  cases hno : s.onMessage with
  | some g =>
    have : s.handle r = s.dispatchOnMessage g := by simp [Srv.handle, hno]
    rw [this]
    exact .runDispatch _ _ _ _ _
  | none =>
    refine .routerType _ _ json f hs rfl _ ?_
    have hne : URLPATTERN ≠ MESSAGEID := by decide
    rcases routed_eq s json f r hr hno with ⟨h1, h2⟩ | ⟨h1, h2⟩ | ⟨h1, h2, h3⟩
    · rw [if_pos h1, ← h2]
      exact .runDispatch _ _ _ _ _
    · rw [if_neg (by rw [h1]; exact hne)]
      refine .routerType _ _ json f hs rfl _ ?_
      rw [if_pos h1, ← h2]
      exact .runDispatch _ _ _ _ _
    · rw [if_neg h1]
      refine .routerType _ _ json f hs rfl _ ?_
      rw [if_neg h2]
      refine .routerType _ _ json f hs rfl _ ?_
      rw [← h3]
      exact .runDispatch _ _ _ _ _

/-- Dispatch state of a request: not dispatched yet, or dispatched once as `d`. -/
def DispatchState (rt : String) (d : Dispatch) (i : Nat) (y : Sys) : Prop :=
  (Pre rt d (y.threads i).prog ∧ dispatches i y.trace = []) ∨
  ((y.threads i).prog.All (fun a => ∀ d, a ≠ .note (.dispatch d)) ∧ dispatches i y.trace = [d])

theorem dispatches_cons_other {i : Nat} {e : Event} {tr : List Event} (h : e.tid ≠ i ∨ ∀ d, e.action ≠ .note (.dispatch d)) :
    dispatches i (e :: tr) = dispatches i tr := by
  unfold dispatches
  rw [List.filterMap_cons]
  by_cases hi : e.tid = i
  · rw [if_pos hi]
    cases ha : e.action with
    | note n =>
      cases n with
      | dispatch d => rcases h with h | h
                      · exact absurd hi h
                      · exact absurd ha (h d)
      | _ => rfl
    | _ => rfl
  · rw [if_neg hi]

/-- A step by any request keeps the dispatch state of request `i`, if `i` finds the right thing in its store. -/
theorem dispatchState_next (arr : Nat → Arrival) (rt : String) (d : Dispatch) (i : Nat) (y : Sys) (j : Nat) (a : Action)
    (k : Option Any → Prog Unit) (p : Ptrs) (hp : (y.threads j).prog = .act a k) (h : DispatchState rt d i y)
    (hm : j = i → Pre rt d (y.threads i).prog →
      (y.mem (scope arr i) routerTypeKey).bind Any.asString = none ∨ y.mem (scope arr i) routerTypeKey = some (.str rt)) :
    DispatchState rt d i (y.next arr j a k p) := by
  by_cases hj : j = i
  · subst hj
    unfold DispatchState
    simp only [Sys.next, if_true]
    rcases h with ⟨h1, h2⟩ | ⟨h1, h2⟩
    · have hm := hm rfl h1
      rw [hp] at h1
      cases h1 with
      | get k hk =>
        refine .inl ⟨hk _ hm, ?_⟩
        rw [dispatches_cons_other (.inr (by simp)), h2]
      | set k hk =>
        refine .inl ⟨hk _, ?_⟩
        rw [dispatches_cons_other (.inr (by simp)), h2]
      | noted k s hk =>
        refine .inl ⟨hk _, ?_⟩
        rw [dispatches_cons_other (.inr (by simp)), h2]
      | now k hk =>
        refine .inr ⟨hk _, ?_⟩
        simp only [dispatches] at h2 ⊢
        simp [h2]
    · rw [hp] at h1
      refine .inr ⟨h1.2 _, ?_⟩
      rw [dispatches_cons_other (.inr (fun d => h1.1 d)), h2]
  · unfold DispatchState
    simp only [Sys.next, if_neg (Ne.symm hj)]
    rw [dispatches_cons_other (.inl hj)]
    exact h

/-! ## Keys under which only good values are ever stored -/

/-- A program that, as long as it reads only good values under `key`, stores only good values there, and makes only good notes. -/
def Prog.Keeps {α : Type} (key : Key) (good : Any → Prop) (noteOk : Note → Prop) : Prog α → Prop
  | .ret _ => True
  | .panic => True
  | .act a k => (∀ v, a = .setReq key v → good v) ∧ (∀ w v, a ≠ .setConn w key v) ∧ (∀ n, a = .note n → noteOk n) ∧
      ∀ r, (a = .getReq key → ∀ v, r = some v → good v) → (k r).Keeps key good noteOk

section Keeps
variable {key : Key} {good : Any → Prop} {noteOk : Note → Prop}

theorem Prog.Keeps.bind {α β : Type} {p : Prog α} {f : α → Prog β} (hp : p.Keeps key good noteOk)
    (hf : ∀ a, (f a).Keeps key good noteOk) : (p.bind f).Keeps key good noteOk := by
  induction p with
  | ret a => exact hf a
  | panic => trivial
  | act a k ih => exact ⟨hp.1, hp.2.1, hp.2.2.1, fun r hr => ih r (hp.2.2.2 r hr)⟩

theorem Prog.Keeps.of_all {α : Type} {p : Prog α}
    (hp : p.All (fun a => (∀ v, a = .setReq key v → good v) ∧ (∀ w v, a ≠ .setConn w key v) ∧ (∀ n, a = .note n → noteOk n))) :
    p.Keeps key good noteOk := by
  induction p with
  | ret a => trivial
  | panic => trivial
  | act a k ih => exact ⟨hp.1.1, hp.1.2.1, hp.1.2.2, fun r _ => ih r (hp.2 r)⟩

theorem Code.run_keeps (json : JSONCodec) (f : Bytes) (bad : Call → Prop) (u : Code) (hu : Avoids bad u)
    (h : ∀ c, ¬ bad c → (c.run json f).Keeps key good noteOk) : (u.run json f).Keeps key good noteOk := by
  induction hu with
  | done => trivial
  | panic => trivial
  | call c k hc _ ih => exact (h c hc).bind ih

theorem runDispatch_keeps (json : JSONCodec) (f : Bytes) (code : Dispatch → Code) (d : Dispatch)
    (hn : noteOk (.dispatch d)) (hc : ((code d).run json f).Keeps key good noteOk) :
    (runDispatch json f code d).Keeps key good noteOk := by
  refine ⟨by simp, by simp, ?_, fun _ _ => ?_⟩
  · intro n h; cases h; exact hn
  · cases d with
    | nothing => trivial
    | panic => trivial
    | direct h => exact hc
    | chain hs =>
      show (Prog.bind ((code (.chain hs)).run json f) _).Keeps _ _ _
      refine hc.bind (fun _ => ?_)
      exact ⟨by simp, by simp, by simp, fun _ _ => trivial⟩

theorem request_keeps (s : Srv) (json : JSONCodec) (f : Bytes) (code : Dispatch → Code)
    (hn : ∀ d, noteOk (.dispatch d)) (hr : (routerType json f).Keeps key good noteOk)
    (hc : ∀ d, ((code d).run json f).Keeps key good noteOk) : (request s json f code).Keeps key good noteOk := by
  unfold request
  cases s.onMessage with
  | some g => exact runDispatch_keeps _ _ _ _ (hn _) (hc _)
  | none =>
    refine Prog.Keeps.bind hr (fun rt => ?_)
    split
    · exact runDispatch_keeps _ _ _ _ (hn _) (hc _)
    · refine Prog.Keeps.bind hr (fun rt => ?_)
      split
      · exact runDispatch_keeps _ _ _ _ (hn _) (hc _)
      · exact Prog.Keeps.bind hr (fun rt => runDispatch_keeps _ _ _ _ (hn _) (hc _))

/-- Only good values are stored under `key`, and only good notes made, by the requests of scope `st`. -/
def KeepsScope (arr : Nat → Arrival) (st : StoreId) (key : Key) (good : Any → Prop) (noteOk : Note → Prop) (y : Sys) : Prop :=
  (∀ j, scope arr j = st → (y.threads j).prog.Keeps key good noteOk) ∧
  (∀ v, y.mem st key = some v → good v) ∧
  (∀ e ∈ y.trace, scope arr e.tid = st → ∀ n, e.action = .note n → noteOk n)

theorem keepsScope_next (arr : Nat → Arrival) (st : StoreId) (y : Sys) (i : Nat) (a : Action) (k : Option Any → Prog Unit) (p : Ptrs)
    (h : KeepsScope arr st key good noteOk y) (hp : (y.threads i).prog = .act a k) :
    KeepsScope arr st key good noteOk (y.next arr i a k p) := by
  obtain ⟨h1, h2, h3⟩ := h
  refine ⟨?_, ?_, ?_⟩
  · intro j hj
    by_cases hji : j = i
    · subst hji
      have := h1 j hj
      rw [hp] at this
      simp only [Sys.next, if_true]
      refine this.2.2.2 _ ?_
      rintro rfl v hv
      rw [hj] at hv
      exact h2 v hv
    · simp only [Sys.next, if_neg hji]; exact h1 j hj
  · intro v hv
    by_cases hs : scope arr i = st
    · have hk := h1 i hs
      rw [hp] at hk
      simp only [Sys.next, hs] at hv
      cases a with
      | setReq q w =>
        simp only [Action.memEffect, Mem.put, true_and] at hv
        by_cases hq : key = q
        · rw [if_pos hq] at hv; cases hv; subst hq; exact hk.1 _ rfl
        · rw [if_neg hq] at hv; exact h2 v hv
      | setConn who q w =>
        simp only [Action.memEffect, Mem.put, true_and] at hv
        by_cases hq : key = q
        · subst hq; exact absurd rfl (hk.2.1 who w)
        · rw [if_neg hq] at hv; exact h2 v hv
      | _ => exact h2 v hv
    · have : (y.next arr i a k p).mem st key = y.mem st key := by
        have hne : ¬ st = scope arr i := fun h => hs h.symm
        cases a <;> simp [Sys.next, Action.memEffect, Mem.put, hne]
      rw [this] at hv
      exact h2 v hv
  · intro e he hs n hn
    rcases List.mem_cons.1 he with rfl | he
    · have hk := h1 i hs
      rw [hp] at hk
      exact hk.2.2.1 n hn
    · exact h3 e he hs n hn

theorem keepsScope_start (s : Srv) (json : JSONCodec) (arr : Nat → Arrival) (st : StoreId)
    (h : ∀ j, scope arr j = st → (request s json (arr j).stream (arr j).code).Keeps key good noteOk) :
    KeepsScope arr st key good noteOk (Sys.start s json arr) :=
  ⟨h, fun _ hv => (by cases hv), fun _ he => (by cases he)⟩

end Keeps

/-- The cache of the router type holds the type of the header, if handlers leave it alone. -/
theorem request_keeps_routerType (s : Srv) (json : JSONCodec) (f : Bytes) (code : Dispatch → Code)
    (hs : declaredHeaderLen f < 2^31 - 16) (hc : ∀ d, Avoids (StoresKey routerTypeKey) (code d)) :
    (request s json f code).Keeps routerTypeKey (· = .str (headerType json f)) (fun _ => True) := by
  have hrt : (routerType json f).Keeps routerTypeKey (· = .str (headerType json f)) (fun _ => True) := by
    refine ⟨by simp, by simp, by simp, fun c hc => ?_⟩
    simp only [Prog.bind]
    cases c with
    | none =>
      rw [routerTypeWith_header json f hs none rfl]
      exact ⟨by simp, by simp, by simp, fun _ _ => ⟨by simp, by simp, by simp, fun _ _ => trivial⟩⟩
    | some v =>
      have := hc rfl v rfl
      subst this
      exact ⟨by simp, by simp, by simp, fun _ _ => trivial⟩
  refine request_keeps s json f code (fun _ => trivial) hrt (fun d => ?_)
  refine Code.run_keeps json f _ _ (hc d) (fun c hbad => ?_)
  by_cases hcr : c = .routerType
  · subst hcr
    exact Prog.Keeps.bind hrt (fun _ => trivial)
  · refine Prog.Keeps.of_all ((c.run_may json f).mono ?_)
    intro a ha
    refine ⟨?_, ?_, fun _ _ => trivial⟩
    · rintro v rfl
      rcases ha with rfl | ⟨_, h⟩ | ⟨h, _⟩
      · exact absurd rfl hbad
      · exact absurd h hcr
      · exact absurd h (by decide)
    · rintro w v rfl
      cases w with
      | user => obtain ⟨rfl, _⟩ := ha; exact absurd rfl hbad
      | framework => exact absurd ha.1 (by decide)

/-- The cache of the URL pattern holds the pattern of the header, if handlers leave it alone; and `GetURLPattern` returns it. -/
theorem request_keeps_pattern (s : Srv) (json : JSONCodec) (f : Bytes) (code : Dispatch → Code) (q : Res String)
    (hq : urlPatternOf json { live := f } = q) (hc : ∀ d, Avoids (StoresKey urlPatternKey) (code d)) :
    (request s json f code).Keeps urlPatternKey (fun v => ∃ p, q = .ok p ∧ v = .str p) (fun n => ∀ r, n = .pattern r → r = q) := by
  have hrt : (routerType json f).Keeps urlPatternKey (fun v => ∃ p, q = .ok p ∧ v = .str p) (fun n => ∀ r, n = .pattern r → r = q) := by
    refine Prog.Keeps.of_all (routerType_all json f _ ⟨by simp, by simp, by simp⟩ (fun v => ⟨?_, by simp, by simp⟩)
      (fun s => ⟨by simp, by simp, ?_⟩))
    · intro v h
      injection h with h
      exact absurd h (by decide)
    · intro n hn r hr
      subst hr
      cases hn
  have hup : (getURLPattern json f).Keeps urlPatternKey (fun v => ∃ p, q = .ok p ∧ v = .str p) (fun n => ∀ r, n = .pattern r → r = q) := by
    have hnote : ∀ (b : Res String), b = q → (Prog.act (.note (.pattern b)) (fun _ => Prog.ret b)).Keeps urlPatternKey
        (fun v => ∃ p, q = .ok p ∧ v = .str p) (fun n => ∀ r, n = .pattern r → r = q) := by
      intro b hb
      refine ⟨by simp, by simp, ?_, fun _ _ => trivial⟩
      intro n hn r hr
      subst hr
      cases hn
      exact hb
    refine ⟨by simp, by simp, by simp, fun c hc => ?_⟩
    simp only [Prog.bind]
    cases c with
    | none =>
      simp only [Option.bind_none, hq]
      cases q with
      | ok p => exact ⟨fun v h => ⟨p, rfl, by cases h; rfl⟩, by simp, by simp, fun _ _ => hnote _ rfl⟩
      | err e => exact hnote _ rfl
      | panic => trivial
      | block => trivial
    | some v =>
      obtain ⟨p, h1, rfl⟩ := hc rfl v rfl
      exact hnote _ h1.symm
  refine request_keeps s json f code (fun d r h => by cases h) hrt (fun d => ?_)
  refine Code.run_keeps json f _ _ (hc d) (fun c hbad => ?_)
  by_cases hcr : c = .urlPattern
  · subst hcr
    exact Prog.Keeps.bind hup (fun _ => trivial)
  · have hnp : (c.run json f).All (fun a => ∀ r, a ≠ .note (.pattern r)) := by
      cases c with
      | setConn k v =>
        refine Prog.All.bind ?_ (fun _ => trivial)
        cases k with
        | str s =>
          simp only [setCtxPerConn]
          split
          · trivial
          · exact ⟨by simp, fun _ => trivial⟩
        | other n => exact ⟨by simp, fun _ => trivial⟩
      | getConn k => exact ⟨by simp, fun _ => trivial⟩
      | setReq k v => exact ⟨by simp, fun _ => trivial⟩
      | getReq k => exact ⟨by simp, fun _ => trivial⟩
      | setUsername u => exact ⟨by simp, fun _ => trivial⟩
      | username =>
        refine Prog.All.bind ?_ (fun _ => trivial)
        refine ⟨by simp, fun r => ?_⟩
        simp only [Prog.bind]
        split
        · exact ⟨by simp, fun _ => trivial⟩
        · split
          · trivial
          · exact ⟨by simp, fun _ => trivial⟩
      | routerType => exact Prog.All.bind (routerType_all json f _ (by simp) (by simp) (by simp)) (fun _ => trivial)
      | urlPattern => exact absurd rfl hcr
      | send b => exact ⟨by simp, fun _ => trivial⟩
    have hboth : ∀ {p : Prog CallRes} {P Q : Action → Prop}, p.All P → p.All Q → p.All (fun a => P a ∧ Q a) := by
      intro p P Q h1 h2
      induction p with
      | ret a => trivial
      | panic => trivial
      | act a k ih => exact ⟨⟨h1.1, h2.1⟩, fun r => ih r (h1.2 r) (h2.2 r)⟩
    refine Prog.Keeps.of_all ((hboth (c.run_may json f) hnp).mono ?_)
    intro a ⟨ha, hn⟩
    refine ⟨?_, ?_, ?_⟩
    · rintro v rfl
      rcases ha with rfl | ⟨h, _⟩ | ⟨_, h⟩
      · exact absurd rfl hbad
      · exact absurd h (by decide)
      · exact absurd h hcr
    · rintro w v rfl
      cases w with
      | user => obtain ⟨rfl, _⟩ := ha; exact absurd rfl hbad
      | framework => exact absurd ha.1 (by decide)
    · rintro n rfl r rfl
      exact absurd rfl (hn r)

end Tcpx
