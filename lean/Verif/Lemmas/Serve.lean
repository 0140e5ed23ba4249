import Verif.Spec.Serve
import Verif.Props.Strings
/-! # Lemmas on listening calls -/
namespace Tcpx

theorem runServe_snoc (ops : List ServeOp) (op : ServeOp) : runServe (ops ++ [op]) = (runServe ops).step op := by
  simp [runServe, List.foldl_append]

theorem lastCert_snoc (ops : List ServeOp) (op : ServeOp) :
    Spec.lastCert (ops ++ [op]) = match op with | .load (some c) => some c | _ => Spec.lastCert ops := by
  unfold Spec.lastCert
  rw [List.reverse_append]
  cases op with
  | load r => cases r <;> rfl
  | _ => rfl

theorem snoc_ind {α : Type} {P : List α → Prop} (h0 : P []) (h1 : ∀ l a, P l → P (l ++ [a])) (l : List α) : P l := by
  have : ∀ l : List α, P l.reverse := by
    intro l
    induction l with
    | nil => exact h0
    | cons a l ih => rw [List.reverse_cons]; exact h1 _ _ ih
  simpa using this l.reverse

/-- What a call may do: nothing to listeners (`load`), nothing at all, or open one. -/
theorem serveTCP_cases (s : Serving) (n a : String) (w : Bool) :
    s.serveTCP n a w = if listenKnows n && w then s.open_ ⟨n, a, .messages, s.cert⟩ else s := by
  unfold Serving.serveTCP Serving.newListener
  cases hc : s.cert with
  | none => simp
  | some c => simp only []; cases h : (listenKnows n && w) <;> simp

theorem transport_tcp (n : String) : transportOf n.toList = .ok .tcp ↔ listenKnows n = true := by
  obtain ⟨t, ht, h1, _⟩ := C68_transport n.toList
  rw [ht]
  have : (Res.ok t = Res.ok Transport.tcp) ↔ t = .tcp := by constructor <;> intro h; · cases h; rfl
                                                            · rw [h]
  rw [this, h1]
  simp [listenKnows, ← String.toList_inj]

theorem transport_udp (n : String) : transportOf n.toList = .ok .udp ↔ listenPacketKnows n = true := by
  obtain ⟨t, ht, _, h2⟩ := C68_transport n.toList
  rw [ht]
  have : (Res.ok t = Res.ok Transport.udp) ↔ t = .udp := by constructor <;> intro h; · cases h; rfl
                                                            · rw [h]
  rw [this, h2]
  simp [listenPacketKnows, ← String.toList_inj]

theorem serve_tcp (s : Serving) (n a : String) (w : Bool) (h : listenKnows n = true) : s.serve n a w = s.serveTCP n a w := by
  unfold Serving.serve
  rw [(transport_tcp n).2 h]

theorem serve_udp (s : Serving) (n a : String) (w : Bool) (h : listenPacketKnows n = true) : s.serve n a w = s.serveUDP n a none w := by
  unfold Serving.serve
  rw [(transport_udp n).2 h]

theorem serve_none (s : Serving) (n a : String) (w : Bool) (h1 : listenKnows n = false) (h2 : listenPacketKnows n = false) : s.serve n a w = s := by
  unfold Serving.serve
  have t1 := transport_tcp n
  have t2 := transport_udp n
  rw [h1] at t1
  rw [h2] at t2
  split
  · rename_i h; simp [h] at t1
  · rename_i h; simp [h] at t2
  · rfl

/-- The ways a call changes the server. -/
inductive Change (s : Serving) : ServeOp → Serving → Prop where
  | load (r : Option Nat) : Change s (.load r) (s.loadTLSFile r)
  | same (op : ServeOp) (h : ∀ r, op ≠ .load r) : Change s op s
  | messages (op : ServeOp) (h : ∀ r, op ≠ .load r) (n a : String) (hk : listenKnows n = true) : Change s op (s.open_ ⟨n, a, .messages, s.cert⟩)
  | raw (n a : String) (w : Bool) (hk : listenKnows n = true) : Change s (.serveRaw n a w) (s.open_ ⟨n, a, .raw, none⟩)
  | datagrams (op : ServeOp) (h : ∀ r, op ≠ .load r) (n a : String) (b : Nat) (hk : listenPacketKnows n = true) :
      Change s op (s.open_ ⟨n, a, .datagrams b, none⟩)

theorem change_tcp (s : Serving) (op : ServeOp) (h : ∀ r, op ≠ .load r) (n a : String) (w : Bool) : Change s op (s.serveTCP n a w) := by
  rw [serveTCP_cases]
  split
  · rename_i hk; simp only [Bool.and_eq_true] at hk; exact .messages op h n a hk.1
  · exact .same op h

theorem change_udp (s : Serving) (op : ServeOp) (h : ∀ r, op ≠ .load r) (n a : String) (b : Option Nat) (w : Bool) :
    Change s op (s.serveUDP n a b w) := by
  unfold Serving.serveUDP
  split
  · rename_i hk; simp only [Bool.and_eq_true] at hk; exact .datagrams op h n a _ hk.1
  · exact .same op h

theorem change_serve (s : Serving) (op : ServeOp) (h : ∀ r, op ≠ .load r) (n a : String) (w : Bool) : Change s op (s.serve n a w) := by
  unfold Serving.serve
  split
  · exact change_tcp s op h n a w
  · exact change_udp s op h n a none w
  · exact .same op h

theorem change_step (s : Serving) (op : ServeOp) : Change s op (s.step op) := by
  cases op with
  | load r => exact .load r
  | serve n a w => exact change_serve s _ (by intro r h; cases h) n a w
  | serveTCP n a w => exact change_tcp s _ (by intro r h; cases h) n a w
  | serveRaw n a w =>
    show Change s _ (s.serveRaw n a w)
    unfold Serving.serveRaw
    split
    · rename_i hk; simp only [Bool.and_eq_true] at hk; exact .raw n a w hk.1
    · exact .same _ (by intro r h; cases h)
  | serveUDP n a b w => exact change_udp s _ (by intro r h; cases h) n a b w
  | startRec i w =>
    show Change s _ (s.startRec i w)
    unfold Serving.startRec
    split
    · exact change_serve s _ (by intro r h; cases h) _ _ w
    · exact .same _ (by intro r h; cases h)

theorem cert_eq (ops : List ServeOp) : (runServe ops).cert = Spec.lastCert ops := by
  induction ops using snoc_ind with
  | h0 => rfl
  | h1 ops op ih =>
    rw [runServe_snoc, lastCert_snoc]
    generalize hs : (runServe ops).step op = s'
    have := change_step (runServe ops) op
    rw [hs] at this
    cases this with
    | load r => cases r with
      | none => exact ih
      | some c => rfl
    | same _ h => cases op <;> first | exact ih | exact absurd rfl (h _)
    | messages _ h n a => cases op <;> first | exact ih | exact absurd rfl (h _)
    | raw n a w => exact ih
    | datagrams _ h n a b => cases op <;> first | exact ih | exact absurd rfl (h _)

/-- Every record's listener is the last one opened at its endpoint. -/
def RecOK (s : Serving) : Prop := ∀ r ∈ s.recs, ∃ o, s.opened[r.listener]? = some o ∧ o.network = r.network ∧ o.addr = r.port ∧
  ∀ j x, r.listener < j → s.opened[j]? = some x → ¬ (x.network = r.network ∧ x.addr = r.port)

theorem mem_replace {n p : String} {l : Nat} : ∀ {rs rs' : List LRec}, replaceListener n p l rs = some rs' → (rs.map fun r => (r.network, r.port)).Nodup →
    (∀ r ∈ rs', (r = ⟨n, p, l⟩) ∨ (r ∈ rs ∧ ¬ (r.network = n ∧ r.port = p))) ∧ rs'.map (fun r => (r.network, r.port)) = rs.map (fun r => (r.network, r.port)) := by
  intro rs
  induction rs with
  | nil => intro rs' h; cases h
  | cons r rs ih =>
    intro rs' h hn
    simp only [replaceListener] at h
    simp only [List.map_cons, List.nodup_cons] at hn
    split at h
    · rename_i he
      obtain ⟨h1, h2⟩ := he
      cases h
      constructor
      · intro x hx
        rcases List.mem_cons.1 hx with rfl | hx
        · exact Or.inl (by rw [← h1, ← h2])
        · refine Or.inr ⟨List.mem_cons_of_mem _ hx, ?_⟩
          rintro ⟨e1, e2⟩
          exact hn.1 (List.mem_map.2 ⟨x, hx, by rw [e1, e2, h1, h2]⟩)
      · rfl
    · rename_i he
      cases hr : replaceListener n p l rs with
      | none => rw [hr] at h; cases h
      | some rs2 =>
        rw [hr] at h
        cases h
        obtain ⟨i1, i2⟩ := ih hr hn.2
        constructor
        · intro x hx
          rcases List.mem_cons.1 hx with rfl | hx
          · exact Or.inr ⟨List.mem_cons_self .., he⟩
          · rcases i1 x hx with h | ⟨h, h'⟩
            · exact Or.inl h
            · exact Or.inr ⟨List.mem_cons_of_mem _ h, h'⟩
        · simp [i2]

theorem replace_none {n p : String} {l : Nat} : ∀ {rs : List LRec}, replaceListener n p l rs = none → ∀ r ∈ rs, ¬ (r.network = n ∧ r.port = p) := by
  intro rs
  induction rs with
  | nil => intro _ r hr; cases hr
  | cons r rs ih =>
    intro h x hx
    simp only [replaceListener] at h
    split at h
    · cases h
    · rename_i he
      rcases List.mem_cons.1 hx with rfl | hx
      · exact he
      · exact ih (by simpa using h) x hx

theorem fill_ok (n p : String) (l : Nat) (rs : List LRec) (hn : (rs.map fun r => (r.network, r.port)).Nodup) :
    (∀ r ∈ fillProperty n p l rs, (r = ⟨n, p, l⟩) ∨ (r ∈ rs ∧ ¬ (r.network = n ∧ r.port = p))) ∧
    ((fillProperty n p l rs).map fun r => (r.network, r.port)).Nodup := by
  unfold fillProperty
  split
  · rename_i rs' h
    obtain ⟨h1, h2⟩ := mem_replace h hn
    exact ⟨h1, by rw [h2]; exact hn⟩
  · rename_i h
    have hr := replace_none h
    constructor
    · intro r hr'
      rcases List.mem_append.1 hr' with h | h
      · exact Or.inr ⟨h, hr r h⟩
      · exact Or.inl (by simpa using h)
    · rw [List.map_append, List.nodup_append]
      refine ⟨hn, by simp, ?_⟩
      intro a ha b hb
      simp only [List.map_cons, List.map_nil, List.mem_singleton] at hb
      obtain ⟨r, hr1, rfl⟩ := List.mem_map.1 ha
      subst hb
      intro he
      simp only [Prod.mk.injEq] at he
      exact hr r hr1 he

theorem open_ok {s : Serving} (o : Opened) (h : RecOK s) (hn : (s.recs.map fun r => (r.network, r.port)).Nodup) :
    RecOK (s.open_ o) ∧ ((s.open_ o).recs.map fun r => (r.network, r.port)).Nodup := by
  obtain ⟨h1, h2⟩ := fill_ok o.network o.addr s.opened.length s.recs hn
  refine ⟨?_, h2⟩
  intro r hr
  rcases h1 r hr with rfl | ⟨hm, hne⟩
  · refine ⟨o, by simp [Serving.open_], rfl, rfl, ?_⟩
    intro j x hj hx
    simp only [Serving.open_] at hx
    have : (s.opened ++ [o]).length ≤ j := by simp; exact hj
    rw [List.getElem?_eq_none this] at hx
    cases hx
  · obtain ⟨x, hx, e1, e2, h3⟩ := h r hm
    have hl : r.listener < s.opened.length := by
      rcases Nat.lt_or_ge r.listener s.opened.length with h | h
      · exact h
      · rw [List.getElem?_eq_none h] at hx; cases hx
    refine ⟨x, by simp only [Serving.open_]; rw [List.getElem?_append_left hl]; exact hx, e1, e2, ?_⟩
    intro j y hj hy
    simp only [Serving.open_] at hy
    rcases Nat.lt_or_ge j s.opened.length with hjl | hjl
    · rw [List.getElem?_append_left hjl] at hy; exact h3 j y hj hy
    · rw [List.getElem?_append_right hjl] at hy
      cases hk : j - s.opened.length with
      | zero =>
        rw [hk] at hy
        simp only [List.getElem?_cons_zero, Option.some.injEq] at hy
        subst hy
        rintro ⟨e3, e4⟩
        exact hne ⟨e3.symm, e4.symm⟩
      | succ k => rw [hk] at hy; simp at hy

theorem rec_ok (ops : List ServeOp) : RecOK (runServe ops) ∧ ((runServe ops).recs.map fun r => (r.network, r.port)).Nodup := by
  induction ops using snoc_ind with
  | h0 => exact ⟨(by intro r hr; cases hr), List.nodup_nil⟩
  | h1 ops op ih =>
    rw [runServe_snoc]
    generalize hs : (runServe ops).step op = s'
    have := change_step (runServe ops) op
    rw [hs] at this
    cases this with
    | load r => cases r <;> exact ih
    | same _ h => exact ih
    | messages _ h n a => exact open_ok _ ih.1 ih.2
    | raw n a w => exact open_ok _ ih.1 ih.2
    | datagrams _ h n a b => exact open_ok _ ih.1 ih.2

/-- Streams and datagrams are listened to on the networks known for them. -/
def netOK (o : Opened) : Prop := match o.proto with
  | .datagrams _ => listenPacketKnows o.network = true
  | _ => listenKnows o.network = true

theorem nets_ok (ops : List ServeOp) : ∀ o ∈ (runServe ops).opened, netOK o := by
  induction ops using snoc_ind with
  | h0 => intro o ho; cases ho
  | h1 ops op ih =>
    rw [runServe_snoc]
    generalize hs : (runServe ops).step op = s'
    have := change_step (runServe ops) op
    rw [hs] at this
    have key : ∀ o', netOK o' → ∀ o ∈ ((runServe ops).open_ o').opened, netOK o := by
      intro o' h' o ho
      rcases List.mem_append.1 ho with h | h
      · exact ih o h
      · rw [List.mem_singleton.1 h]; exact h'
    cases this with
    | load r => cases r <;> exact ih
    | same _ h => exact ih
    | messages _ h n a hk => exact key _ hk
    | raw n a w hk => exact key _ hk
    | datagrams _ h n a b hk => exact key _ hk

theorem opens_startRec (ops : List ServeOp) (i : Nat) (r : LRec) (hr : (runServe ops).recs[i]? = some r) (o : Opened)
    (h : (runServe ops).serve r.network r.port true = (runServe ops).open_ o) : Spec.Opens ops (.startRec i true) o := by
  unfold Spec.Opens
  rw [runServe_snoc]
  simp only [Serving.step, Serving.startRec, hr, h, Serving.open_]

end Tcpx
