import Verif.Props.EndToEnd
import Verif.Props.Requests
/-!
# Property C161: what `RouteTypeOf` and `URLPatternOf` tell of a message
-/
namespace Tcpx
open Spec
variable {V : Type}

/-- What is to be read in a header under a key: nothing there is the empty text, a text is itself, and anything else is an error. -/
inductive Spec.TextAt (h : Header) (k : String) : Res String → Prop where
  | absent : h.get? k = none → TextAt h k (.ok "")
  | text (s) : h.get? k = some (.str s) → TextAt h k (.ok s)
  | other (v) : h.get? k = some v → (∀ s, v ≠ .str s) → TextAt h k (.err .notString)

theorem asString_some {v : Any} {s : String} : v.asString = some s ↔ v = .str s := by
  cases v <;> simp [Any.asString]

theorem asString_none {v : Any} : v.asString = none ↔ ∀ s, v ≠ .str s := by
  cases v <;> simp [Any.asString]

theorem textAt_of {h h' : Header} {k : String} (hk : (h'.get? k).map Any.asString = (h.get? k).map Any.asString) {f : Slice → Res String}
    {json : JSONCodec} {s : Slice} (hh : headerOf json s = .ok h')
    (hf : f s = do let h ← headerOf json s; let r ← headerGetString h k; .ok r.1) : TextAt h k (f s) := by
  rw [hf, hh]
  show TextAt h k (do let r ← headerGetString h' k; .ok r.1)
  have hempty : h'.len = 0 → h'.get? k = none := by
    intro h0
    match h' with
    | none => rfl
    | some [] => rfl
    | some (_ :: _) => simp [Header.len] at h0
  unfold headerGetString
  cases hg : h.get? k with
  | none =>
    have hn : h'.get? k = none := by
      rw [hg] at hk
      cases hg' : h'.get? k with
      | none => rfl
      | some v => rw [hg'] at hk; cases hk
    rw [hn]
    split <;> exact .absent hg
  | some v =>
    rw [hg] at hk
    cases hg' : h'.get? k with
    | none => rw [hg'] at hk; cases hk
    | some v' =>
      rw [hg'] at hk
      have hk : v'.asString = v.asString := by simpa using hk
      rw [if_neg (fun h0 => by rw [hempty h0] at hg'; cases hg')]
      simp only [hk]
      cases hv : v.asString with
      | none => exact .other v hg (asString_none.1 hv)
      | some s => exact .text s (by rw [hg, asString_some.1 hv])

/-- C161: of every packed message, whatever follows it in memory, `RouteTypeOf` and `URLPatternOf` tell what its sender put into the header. -/
theorem C161_read (env : Env V) (hj : env.json.Lawful) (max : Int) (x : Sent V) (hx : x.Ok env max) (spare : Bytes) :
    TextAt x.msg.header "Router-Type" (routeTypeOf env.json ⟨x.bytes, spare⟩) ∧
    TextAt x.msg.header "Router-Pattern-Value" (urlPatternOf env.json ⟨x.bytes, spare⟩) := by
  obtain ⟨h', h1, -, h2⟩ := (C81_handler_reads env hj max x hx spare).2.1
  exact ⟨textAt_of (h2 _) h1 (f := routeTypeOf env.json) rfl, textAt_of (h2 _) h1 (f := urlPatternOf env.json) rfl⟩

/-- C161: the messages built by the package say so: `NewMessage` makes messages of type "MESSAGE_ID" whose pattern is no text, and
`NewURLPatternMessage` makes messages of type "URL_PATTERN" with the pattern given. -/
theorem C161_built (env : Env V) (hj : env.json.Lawful) (src : Option V) (m : Option (Marshaller V)) (bs spare : Bytes) (hl : bs.length < 2^31) :
    (∀ id, (newMessage id src).pack env m = .ok bs →
      routeTypeOf env.json ⟨bs, spare⟩ = .ok "MESSAGE_ID" ∧ urlPatternOf env.json ⟨bs, spare⟩ = .err .notString) ∧
    (∀ p, (newURLPatternMessage p src).pack env m = .ok bs →
      routeTypeOf env.json ⟨bs, spare⟩ = .ok "URL_PATTERN" ∧ urlPatternOf env.json ⟨bs, spare⟩ = .ok p) := by
  constructor
  · intro id hp
    obtain ⟨h1, h2⟩ := C161_read env hj 0 ⟨newMessage id src, m, bs⟩ ⟨hp, hl, fun h => absurd h (by decide), rfl⟩ spare
    have e1 : (newMessage id src).header.get? "Router-Type" = some (.str "MESSAGE_ID") := rfl
    have e2 : (newMessage id src).header.get? "Router-Pattern-Value" = some (.num id.toInt) := rfl
    constructor
    · generalize routeTypeOf env.json ⟨bs, spare⟩ = r at h1 ⊢
      cases h1 with
      | absent h => rw [e1] at h; cases h
      | text s h => rw [e1] at h; cases h; rfl
      | other v h hv => rw [e1] at h; cases h; exact absurd rfl (hv _)
    · generalize urlPatternOf env.json ⟨bs, spare⟩ = r at h2 ⊢
      cases h2 with
      | absent h => rw [e2] at h; cases h
      | text s h => rw [e2] at h; cases h
      | other v h hv => rfl
  · intro p hp
    obtain ⟨h1, h2⟩ := C161_read env hj 0 ⟨newURLPatternMessage p src, m, bs⟩ ⟨hp, hl, fun h => absurd h (by decide), rfl⟩ spare
    have e1 : (newURLPatternMessage p src).header.get? "Router-Type" = some (.str "URL_PATTERN") := rfl
    have e2 : (newURLPatternMessage p src).header.get? "Router-Pattern-Value" = some (.str p) := rfl
    constructor
    · generalize routeTypeOf env.json ⟨bs, spare⟩ = r at h1 ⊢
      cases h1 with
      | absent h => rw [e1] at h; cases h
      | text s h => rw [e1] at h; cases h; rfl
      | other v h hv => rw [e1] at h; cases h; exact absurd rfl (hv _)
    · generalize urlPatternOf env.json ⟨bs, spare⟩ = r at h2 ⊢
      cases h2 with
      | absent h => rw [e2] at h; cases h
      | text s h => rw [e2] at h; cases h; rfl
      | other v h hv => rw [e2] at h; cases h; exact absurd rfl (hv _)

/-- What a header that tells the same says under a key. -/
theorem same_text {h h' : Header} {k : String} (hk : (h'.get? k).map Any.asString = (h.get? k).map Any.asString) {t : Res String}
    (ht : TextAt h k t) : TextAt h' k t := by
  cases ht with
  | absent hg =>
    rw [hg] at hk
    cases hg' : h'.get? k with
    | none => exact .absent hg'
    | some v => rw [hg'] at hk; cases hk
  | text s hg =>
    rw [hg] at hk
    cases hg' : h'.get? k with
    | none => rw [hg'] at hk; cases hk
    | some v =>
      rw [hg'] at hk
      exact .text s (by rw [hg', asString_some.1 (show v.asString = some s by simpa [Any.asString] using hk)])
  | other v hg hv =>
    rw [hg] at hk
    cases hg' : h'.get? k with
    | none => rw [hg'] at hk; cases hk
    | some v' =>
      rw [hg'] at hk
      have hk : v'.asString = v.asString := by simpa using hk
      exact .other v' hg' (asString_none.1 (hk.trans (asString_none.2 hv)))

theorem textAt_unique {h : Header} {k : String} {t : Res String} (ht : TextAt h k t) :
    (∀ s, h.get? k = some (.str s) → t = .ok s) ∧ (h.get? k = none → t = .ok "") ∧
    (∀ v, h.get? k = some v → (∀ s, v ≠ .str s) → t = .err .notString) := by
  refine ⟨fun s hs => ?_, fun hn => ?_, fun v hs hv => ?_⟩
  · cases ht with
    | absent h => rw [hs] at h; cases h
    | text s' h => rw [hs] at h; cases h; rfl
    | other v h hv => rw [hs] at h; cases h; exact absurd rfl (hv _)
  · cases ht with
    | absent h => rfl
    | text s' h => rw [hn] at h; cases h
    | other v h hv => rw [hn] at h; cases h
  · cases ht with
    | absent h => rw [hs] at h; cases h
    | text s' h => rw [hs] at h; cases h; exact absurd rfl (hv _)
    | other v h hv => rfl

/-- C161: what they tell agrees with where a server routes the message (`q`): the type "MESSAGE_ID" and an error stand for its id; the type
"URL_PATTERN" for the pattern that `URLPatternOf` tells, and if that fails, the message is given to no handler; any other type that is not empty is
one that the server does not know. -/
theorem C161_server (env : Env V) (hj : env.json.Lawful) (max : Int) (x : Sent V) (hx : x.Ok env max) (spare : Bytes) (q : Srv.Routed)
    (hq : RoutedOf env.json x.bytes q) :
    (∀ e, routeTypeOf env.json ⟨x.bytes, spare⟩ = .err e → q = .byId x.msg.id) ∧
    (routeTypeOf env.json ⟨x.bytes, spare⟩ = .ok "MESSAGE_ID" → q = .byId x.msg.id) ∧
    (routeTypeOf env.json ⟨x.bytes, spare⟩ = .ok "URL_PATTERN" →
      (∀ p, urlPatternOf env.json ⟨x.bytes, spare⟩ = .ok p → q = .byUrl p) ∧
      (∀ e, urlPatternOf env.json ⟨x.bytes, spare⟩ = .err e → q = .unreadable)) ∧
    (∀ s, routeTypeOf env.json ⟨x.bytes, spare⟩ = .ok s → s ≠ "" → s ≠ "MESSAGE_ID" → s ≠ "URL_PATTERN" → q = .unknownType) ∧
    (routeTypeOf env.json ⟨x.bytes, spare⟩ = .ok "" → q = .byId x.msg.id ∨ q = .unknownType) := by
  obtain ⟨h1, h2⟩ := C161_read env hj max x hx spare
  generalize routeTypeOf env.json ⟨x.bytes, spare⟩ = t at h1 ⊢
  generalize urlPatternOf env.json ⟨x.bytes, spare⟩ = u at h2 ⊢
  obtain ⟨h8, hid, -, h', hh, hk⟩ := packed_frame env hj x.msg x.m x.bytes hx.packed hx.small
  have hid' : Int32.ofInt (declaredId x.bytes) = x.msg.id := by rw [hid]; simp
  obtain ⟨t1, t2, t3⟩ := textAt_unique (same_text (hk _) h1)
  obtain ⟨u1, u2, u3⟩ := textAt_unique (same_text (hk _) h2)
  have ne : ("URL_PATTERN" : String) ≠ "MESSAGE_ID" := by decide
  have ne' : ("URL_PATTERN" : String) ≠ "" := by decide
  have same : ∀ h, frameHeader env.json x.bytes = some h → h = h' := fun h e => by rw [hh] at e; cases e; rfl
  cases hq with
  | noHeader h => rw [hh] at h; cases h
  | noId h => omega
  | plain h e1 e2 _ =>
    obtain rfl := same h e1
    rw [hid']
    refine ⟨fun _ _ => rfl, fun _ => rfl, fun h => ?_, fun s h a b c => ?_, fun _ => .inl rfl⟩ <;> subst h
    · cases hg : Header.get? h "Router-Type" with
      | none => have := t2 hg; injection this with this; exact absurd this ne'
      | some v =>
        by_cases hv : ∃ s, v = .str s
        · obtain ⟨s, rfl⟩ := hv
          have := t1 s hg; injection this with this
          exact absurd (this.trans (e2 s hg)) ne
        · have := t3 v hg (fun s h => hv ⟨s, h⟩); cases this
    · cases hg : Header.get? h "Router-Type" with
      | none => have := t2 hg; injection this with this; exact absurd this a
      | some v =>
        by_cases hv : ∃ s, v = .str s
        · obtain ⟨s', rfl⟩ := hv
          have := t1 s' hg; injection this with this
          exact absurd (this.trans (e2 s' hg)) b
        · have := t3 v hg (fun s h => hv ⟨s, h⟩); cases this
  | url h p e1 e2 e3 =>
    obtain rfl := same h e1
    have ht := t1 _ e2; have hu := u1 _ e3
    subst ht; subst hu
    simp [ne, ne']
  | noPattern h e1 e2 e3 =>
    obtain rfl := same h e1
    have ht := t1 _ e2; have hu := u2 e3
    subst ht; subst hu
    simp [ne, ne']
  | badPattern h v e1 e2 e3 e4 =>
    obtain rfl := same h e1
    have ht := t1 _ e2; have hu := u3 v e3 e4
    subst ht; subst hu
    simp [ne, ne']
  | otherType h s e1 e2 e3 e4 =>
    obtain rfl := same h e1
    have ht := t1 _ e2
    subst ht
    refine ⟨fun _ h => (by cases h), fun h => ?_, fun h => ?_, fun _ _ _ _ _ => rfl, fun _ => .inr rfl⟩ <;> injection h with h
    · exact absurd h e3
    · exact absurd h e4

/-- C161: the empty type is no answer: a message whose header has no type and one whose type is the empty text are told apart by the server but
not by `RouteTypeOf`. -/
theorem C161_empty_limit (env : Env V) (hj : env.json.Lawful) (max : Int) (x : Sent V) (hx : x.Ok env max) (spare : Bytes) :
    (x.msg.header.get? "Router-Type" = none →
      routeTypeOf env.json ⟨x.bytes, spare⟩ = .ok "" ∧ RoutedOf env.json x.bytes (.byId x.msg.id)) ∧
    (x.msg.header.get? "Router-Type" = some (.str "") →
      routeTypeOf env.json ⟨x.bytes, spare⟩ = .ok "" ∧ RoutedOf env.json x.bytes .unknownType) := by
  obtain ⟨h1, -⟩ := C161_read env hj max x hx spare
  obtain ⟨t1, t2, -⟩ := textAt_unique h1
  obtain ⟨h8, hid, -, h', hh, hk⟩ := packed_frame env hj x.msg x.m x.bytes hx.packed hx.small
  have hid' : Int32.ofInt (declaredId x.bytes) = x.msg.id := by rw [hid]; simp
  refine ⟨fun h => ⟨t2 h, ?_⟩, fun h => ⟨t1 _ h, ?_⟩⟩
  · rw [← hid']
    refine .plain h' hh (fun s hs => ?_) h8
    have := hk "Router-Type"
    rw [h, hs] at this; cases this
  · exact .otherType h' "" hh (getString_of (hk "Router-Type") "" (by rw [h])) (by decide) (by decide)

/-! Examples for C161: messages of each kind that can be packed. -/

private def rtSent (h : Header) : Sent Bytes := ⟨⟨7, h, some [1]⟩, none, Tcpx.frame 7 (Demo.encHeader h) [1]⟩

set_option maxRecDepth 100000 in
example : Demo.env.json.Lawful ∧ ∀ h ∈ ([none, some [], some [("Router-Type", .str "")], some [("Router-Type", .str "URL_PATTERN")],
    some [("Router-Type", .str "URL_PATTERN"), ("Router-Pattern-Value", .num 3)], some [("Router-Type", .null)],
    some [("Router-Type", .str "X"), ("Router-Pattern-Value", .str "/a")]] : List Header), (rtSent h).Ok Demo.env 0 := by
  refine ⟨Demo.json_lawful, ?_⟩
  simp only [List.forall_mem_cons, List.not_mem_nil, false_implies, implies_true, and_true]
  refine ⟨?_, ?_, ?_, ?_, ?_, ?_, ?_⟩ <;> exact ⟨rfl, by decide, fun h => absurd h (by decide), by decide⟩

set_option maxRecDepth 100000 in
example : ∃ bs, (newMessage 5 (some [1])).pack Demo.env none = .ok bs ∧ bs.length < 2^31 := ⟨_, rfl, by decide⟩
set_option maxRecDepth 100000 in
example : ∃ bs, (newURLPatternMessage "/a" (some [1])).pack Demo.env none = .ok bs ∧ bs.length < 2^31 := ⟨_, rfl, by decide⟩

end Tcpx
