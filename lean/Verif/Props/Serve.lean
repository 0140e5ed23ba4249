import Verif.Lemmas.Serve
/-!
# C106, C107: what listeners speak

`runServe ops` is the server after a sequence of calls of `LoadTLSFile`, the listening calls, and the listening calls made by `Start`, each
of which may fail.  `Spec.Opens ops op o`: the call `op`, made after `ops`, opens the listener `o`.
-/
namespace Tcpx
open Spec

/-! ## C106 -/

/-- C106 (for listeners of messages): the listener speaks TLS with the certificate last loaded, and does not if there is none; a failed
`LoadTLSFile` changes nothing.
Missing: raw servers (`C106_raw_violated`). -/
theorem C106_messages_partial (ops : List ServeOp) (op : ServeOp) (o : Opened) (h : Opens ops op o) (hp : o.proto = .messages) :
    o.tls = lastCert ops := by
  unfold Opens at h
  rw [runServe_snoc] at h
  generalize hs : (runServe ops).step op = s' at h
  have hc := change_step (runServe ops) op
  rw [hs] at hc
  have key : ∀ o', (runServe ops).opened ++ [o'] = (runServe ops).opened ++ [o] → o = o' := by
    intro o' h
    have := List.append_cancel_left h
    cases this
    rfl
  have no : (runServe ops).opened = (runServe ops).opened ++ [o] → False := by
    intro h
    have := congrArg List.length h
    simp at this
  cases hc with
  | load r => cases r <;> exact absurd h no
  | same _ h' => exact absurd h no
  | messages _ h' n a hk => rw [key _ h]; exact cert_eq ops
  | raw n a w hk => rw [key _ h] at hp; cases hp
  | datagrams _ h' n a b hk => rw [key _ h] at hp; cases hp

-- a certificate, a failed attempt to replace it, a listener, its restart with a new certificate
example := C106_messages_partial [.load (some 1), .load none] (.serve "tcp" ":80" true) ⟨"tcp", ":80", .messages, some 1⟩ (by unfold Opens; decide) rfl
example := C106_messages_partial [.load (some 1), .serve "tcp" ":80" true, .load (some 2)] (.startRec 0 true) ⟨"tcp", ":80", .messages, some 2⟩
  (by unfold Opens; decide) rfl

/-- C106: with a certificate, every call that listens for messages on a stream network opens a TLS listener or none. -/
theorem C106_opens (ops : List ServeOp) (c : Nat) (hc : lastCert ops = some c) (n a : String) (hn : n ∈ ["tcp", "tcp4", "tcp6", "unix", "unixpacket"]) :
    Opens ops (.serve n a true) ⟨n, a, .messages, some c⟩ ∧ Opens ops (.serveTCP n a true) ⟨n, a, .messages, some c⟩ ∧
    runServe (ops ++ [.serve n a false]) = runServe ops ∧ runServe (ops ++ [.serveTCP n a false]) = runServe ops := by
  have hk : listenKnows n = true := by simpa [listenKnows] using hn
  unfold Opens
  simp only [runServe_snoc, Serving.step, serve_tcp _ _ _ _ hk, serveTCP_cases, hk, cert_eq, hc]
  exact ⟨rfl, rfl, rfl, rfl⟩

example := C106_opens [.serveRaw "tcp" ":1" true, .load (some 7), .load none] 7 (by decide) "tcp6" "[::1]:80" (by decide)

/-- C106 fails for raw servers: whatever has been loaded, they never speak TLS (tcpx.go:429). -/
theorem C106_raw_violated (ops : List ServeOp) (c : Nat) (_hc : lastCert ops = some c) (n a : String)
    (hn : n ∈ ["tcp", "tcp4", "tcp6", "unix", "unixpacket"]) : Opens ops (.serveRaw n a true) ⟨n, a, .raw, none⟩ := by
  have hk : listenKnows n = true := by simpa [listenKnows] using hn
  unfold Opens
  simp [runServe_snoc, Serving.step, Serving.serveRaw, hk, Serving.open_]

example := C106_raw_violated [.load (some 7)] 7 (by decide) "tcp" ":80" (by decide)

/-! ## C107 -/

/-- C107: the record of an endpoint refers to the listener last opened for it. -/
theorem C107_record (ops : List ServeOp) (i : Nat) (r : LRec) (hr : (runServe ops).recs[i]? = some r) :
    ∃ o, (runServe ops).opened[r.listener]? = some o ∧ currentAt (runServe ops) r.network r.port o := by
  obtain ⟨o, h1, h2, h3, h4⟩ := (rec_ok ops).1 r (List.mem_of_getElem? hr)
  refine ⟨o, h1, (runServe ops).opened.take r.listener, (runServe ops).opened.drop (r.listener + 1), ?_, h2, h3, ?_⟩
  · obtain ⟨hl, he⟩ := List.getElem?_eq_some_iff.1 h1
    rw [← he, ← List.drop_eq_getElem_cons hl, List.take_append_drop]
  · intro x hx
    obtain ⟨j, hj⟩ := List.mem_iff_getElem?.1 hx
    rw [List.getElem?_drop] at hj
    exact h4 _ x (by omega) hj

example : ∃ r, (runServe [.serveRaw "tcp" ":1" true, .serve "udp" ":2" true, .serveTCP "tcp" ":1" true]).recs[0]? = some r ∧ r.listener = 2 := ⟨_, rfl, rfl⟩

/-- C107 (for listeners of messages, and of datagrams with the default buffer): if the endpoint can be listened to again, `Start` opens a listener
for the same purpose as the one before.
Missing: raw listeners and other buffers (`C107_raw_violated`, `C107_buffer_violated`). -/
theorem C107_same_partial (ops : List ServeOp) (i : Nat) (r : LRec) (hr : (runServe ops).recs[i]? = some r) (o : Opened)
    (ho : (runServe ops).opened[r.listener]? = some o) (hp : o.proto = .messages ∨ o.proto = .datagrams 4096) :
    ∃ o', Opens ops (.startRec i true) o' ∧ o'.network = r.network ∧ o'.addr = r.port ∧ o'.proto = o.proto := by
  obtain ⟨o2, h1, h2, h3, _⟩ := (rec_ok ops).1 r (List.mem_of_getElem? hr)
  rw [ho] at h1
  cases h1
  have hk := nets_ok ops o (List.mem_of_getElem? ho)
  rcases hp with hp | hp
  · simp only [netOK, hp] at hk
    rw [h2] at hk
    refine ⟨_, opens_startRec ops i r hr _ (by rw [serve_tcp _ _ _ _ hk, serveTCP_cases, hk]; rfl), rfl, rfl, hp.symm⟩
  · simp only [netOK, hp] at hk
    rw [h2] at hk
    refine ⟨⟨r.network, r.port, .datagrams 4096, none⟩, opens_startRec ops i r hr _ (by rw [serve_udp _ _ _ _ hk]; simp [Serving.serveUDP, hk]),
      rfl, rfl, hp.symm⟩

example := C107_same_partial [.serveRaw "tcp" ":1" true, .serve "udp" ":2" true, .serveTCP "tcp4" ":1" true] 1 ⟨"udp", ":2", 1⟩ (by decide)
  ⟨"udp", ":2", .datagrams 4096, none⟩ (by decide) (Or.inr rfl)

/-- C107 fails for every raw listener: `Start` listens for messages in its place (tcpx.go:1204). -/
theorem C107_raw_violated (ops : List ServeOp) (i : Nat) (r : LRec) (hr : (runServe ops).recs[i]? = some r) (o : Opened)
    (ho : (runServe ops).opened[r.listener]? = some o) (hp : o.proto = .raw) :
    Opens ops (.startRec i true) ⟨r.network, r.port, .messages, lastCert ops⟩ := by
  obtain ⟨o2, h1, h2, h3, _⟩ := (rec_ok ops).1 r (List.mem_of_getElem? hr)
  rw [ho] at h1
  cases h1
  have hk := nets_ok ops o (List.mem_of_getElem? ho)
  simp only [netOK, hp] at hk
  rw [h2] at hk
  exact opens_startRec ops i r hr _ (by rw [serve_tcp _ _ _ _ hk, serveTCP_cases, hk, cert_eq]; rfl)

example := C107_raw_violated [.load (some 3), .serveRaw "tcp" ":1" true] 0 ⟨"tcp", ":1", 0⟩ (by decide) ⟨"tcp", ":1", .raw, none⟩ (by decide) rfl

/-- C107 fails for the buffer size given to `ListenAndServeUDP`: after `Start` it is the default one, and longer datagrams are cut off
(tcpx.go:1204, 375, 719-723). -/
theorem C107_buffer_violated (ops : List ServeOp) (i : Nat) (r : LRec) (hr : (runServe ops).recs[i]? = some r) (o : Opened) (b : Nat)
    (ho : (runServe ops).opened[r.listener]? = some o) (hp : o.proto = .datagrams b) (_hb : b ≠ 4096) :
    Opens ops (.startRec i true) ⟨r.network, r.port, .datagrams 4096, none⟩ := by
  obtain ⟨o2, h1, h2, h3, _⟩ := (rec_ok ops).1 r (List.mem_of_getElem? hr)
  rw [ho] at h1
  cases h1
  have hk := nets_ok ops o (List.mem_of_getElem? ho)
  simp only [netOK, hp] at hk
  rw [h2] at hk
  exact opens_startRec ops i r hr _ (by rw [serve_udp _ _ _ _ hk]; simp [Serving.serveUDP, hk])

example := C107_buffer_violated [.serveUDP "udp" ":1" (some 65536) true] 0 ⟨"udp", ":1", 0⟩ (by decide) ⟨"udp", ":1", .datagrams 65536, none⟩ 65536
  (by decide) rfl (by decide)

end Tcpx
