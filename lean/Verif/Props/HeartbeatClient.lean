import Verif.Model.HeartbeatClient
import Verif.Props.HeartbeatExample
import Verif.Props.AuthClient
/-!
# C127: the client of the heartbeat example
-/
namespace Tcpx
open Spec HeartbeatExample
variable {V : Type}

/-- The goroutines with messages of connection `c` have messages that the server has received there, routed by their headers. -/
def Spec.HeartbeatsOn (env : Env V) (c : Nat) (tasks : List Task) (g : Nat → HeartbeatExample.Gor) : Prop :=
  ∀ i q, g i = .msg c q → ∃ b, .single b ∈ tasks ∧ RoutedOf env.json b q

/-- C127: the client of the example.  However often it has written, and in whatever pieces its bytes arrive, the server starts one
goroutine for each of its writes, and each of them is a heartbeat of this connection: the built-in handler, and one `RecvHeartBeat`.  If
they are handled at least every twenty seconds (the client writes every ten), the connection is kept, with the promptness of `C127_kept`. -/
theorem C127_client (env : Env V) (hj : env.json.Lawful) (n : Nat) (sent : List Bytes) (hsent : HeartbeatClient.sends env n = .ok sent)
    (max : Int32) (hs : ∀ b ∈ sent, b.length < 2^31 ∧ (0 < max.toInt → (b.length : Int) ≤ 4 + max.toInt)) (r : Reader)
    (hr : stream r = (sent.flatten, .stillOpen)) (c : Nat) (g : Nat → HeartbeatExample.Gor)
    (hg : HeartbeatsOn env c (connLoop env.json max r).1 g) :
    (∃ b, connLoop env.json max r = (List.replicate n (.single b), .blocked)) ∧
    (∀ i q, g i = .msg c q → (runOps .new ops).handle q = .direct builtIn ∧ (g i).calls = [.beat c]) ∧
    ∀ (d : Nat) (life : Life) (ls : List TLabel), 6 * d < 10000000000 →
      Throughout HeartbeatExample.cfg (.start life fun i => (g i).calls) ls
        (fun s => PromptBeat HeartbeatExample.cfg d c s ∧ PromptCalls d c s ∧ CallsEvery 20000000000 c s) →
      AtEachT (.closed c .loss) (fun _ before => ClosedIn c before) (trun HeartbeatExample.cfg life (fun i => (g i).calls) ls).log := by
  obtain ⟨buf, hb, rfl⟩ : ∃ buf, packWithMarshaller env ⟨1392, none, none⟩ none = .ok buf ∧ sent = List.replicate n buf := by
    obtain ⟨h, hh⟩ := Option.isSome_iff_exists.1 hj.nil_ok
    have e : packWithMarshaller env ⟨1392, none, none⟩ none = .ok (Tcpx.frame 1392 h []) := by simp [packWithMarshaller, hh, orErr]
    unfold HeartbeatClient.sends at hsent
    rw [show HeartbeatExample.heartbeatId = 1392 from rfl, e] at hsent
    injection hsent with hsent
    exact ⟨_, e, hsent.symm⟩
  let x : Sent V := ⟨⟨1392, none, none⟩, none, buf⟩
  have hxs : ∀ z ∈ List.replicate n x, z = x := fun z hz => List.eq_of_mem_replicate hz
  have hok : ∀ z ∈ List.replicate n x, z.Ok env max.toInt := by
    intro z hz
    have hn : n ≠ 0 := by rintro rfl; simp at hz
    rw [hxs z hz]
    obtain ⟨h1, h2⟩ := hs buf (List.mem_replicate.2 ⟨hn, rfl⟩)
    exact ⟨hb, h1, h2, rfl⟩
  have htasks := C81_one_task_each env hj max (List.replicate n x) hok [] (.inl (by decide)) .stillOpen trivial r (by rw [hr]; simp [x])
  have hnone : ∀ k, Header.get? none k = none := fun _ => rfl
  have hbeat : ∀ i q, g i = .msg c q → q = .byId 1392 := by
    intro i q hi
    obtain ⟨b, h1, h2⟩ := hg i q hi
    rw [htasks] at h1
    obtain ⟨z, hz, hzb⟩ := List.mem_map.1 h1
    have hx := hok z hz
    have hz := hxs z hz
    subst hz
    injection hzb with hzb
    subst hzb
    obtain ⟨-, -, h3, -⟩ := hello_routed env hj _ x hx ⟨(fun s h => by rw [hnone] at h; cases h), hnone _⟩
    obtain ⟨h8, hid, -⟩ := packed_frame env hj _ _ _ (show x.msg.pack env x.m = .ok x.bytes from hx.packed) hx.small
    rw [routedOf_byId h8 h3 h2, hid]
    simp [x]
  refine ⟨⟨buf, by rw [htasks]; simp [x]⟩, fun i q hi => ?_, fun d life ls hd hp => C127_kept d hd life g ls c hp⟩
  rw [hi, hbeat i q hi]
  exact ⟨by decide, by simp [HeartbeatExample.Gor.calls, (C127_routes _).1, HeartbeatExample.runs]⟩

-- two heartbeats in three pieces
example : let b := Tcpx.frame 1392 (Demo.encHeader none) []
    HeartbeatClient.sends Demo.env 2 = .ok [b, b] ∧ b.length < 2^31 ∧
    stream [.chunk (b.take 3), .chunk (b.drop 3 ++ b.take 7), .chunk (b.drop 7)] = ([b, b].flatten, .stillOpen) ∧
    RoutedOf Demo.env.json b (.byId 1392) := by
  intro b
  have hp : packWithMarshaller Demo.env ⟨1392, none, none⟩ none = .ok b := by
    simp [packWithMarshaller, b, Demo.env, Demo.json, orErr]
  refine ⟨by unfold HeartbeatClient.sends; rw [show HeartbeatExample.heartbeatId = 1392 from rfl, hp]; rfl, by decide, by decide, ?_⟩
  have hnone : ∀ k, Header.get? none k = none := fun _ => rfl
  exact (hello_routed Demo.env Demo.json_lawful 0 ⟨⟨1392, none, none⟩, none, b⟩ ⟨hp, by decide, fun h => absurd h (by decide), rfl⟩
    ⟨(fun s h => by rw [hnone] at h; cases h), hnone _⟩).1

end Tcpx
