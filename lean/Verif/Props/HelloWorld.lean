import Verif.Model.HelloWorld
import Verif.Props.EndToEnd
import Verif.Spec.Programs
/-!
# Property C151: the helloworld server prints every text its clients send
-/
namespace Tcpx
open Spec
variable {V : Type}

open HelloWorld in
/-- C151: whatever the messages are, the function given to `OnMessage` is run for each, alone. -/
theorem C151_routes (r : Srv.Routed) : (runOps .new ops).handle r = .chain [onMessage] ∧ Registers .new ops = true := by
  refine ⟨?_, by decide⟩
  cases r <;> rfl

/-- What a client of the helloworld server does: it sends texts (with the bytes they are packed to), which arrive in any pieces, and perhaps
the beginning of another message; then it waits, hangs up or is cut off.  The texts can be packed and read back, and the messages are small
enough for the server. -/
def Spec.SendsTexts (env : Env V) (max : Int32) (xs : List (V × Bytes)) (r : Reader) : Prop :=
  (∀ x ∈ xs, HelloWorld.packed env x.1 = .ok x.2 ∧ x.2.length < 2^31 ∧ (0 < max.toInt → (x.2.length : Int) ≤ 4 + max.toInt) ∧
    Decodes (env.builtin .json) x.1) ∧
  ∃ tail e, Incomplete max.toInt tail ∧ e.plain ∧ stream r = ((xs.map (·.2)).flatten ++ tail, e)

namespace HelloWorld

/-- The goroutines in `is` are over and have printed their texts, in this order; the others have not begun. -/
structure Inv (all : List (V × Bytes)) (is : List Nat) (s : State V) : Prop where
  todo : ∀ i, s.todo[i]? = all[i]?.map fun x => if i ∈ is then [] else [some x.2]
  out : s.out = is.filterMap fun i => all[i]?.map (·.1)
  dead : s.dead = false
  nodup : is.Nodup
  mem : ∀ i ∈ is, i < all.length

theorem inv_step (env : Env V) (noText : V) (routed : Bytes → Srv.Routed) {all : List (V × Bytes)}
    (hall : ∀ x ∈ all, shown env noText x.2 = .ok x.1) {is : List Nat} {s : State V} (h : Inv all is s) (i : Nat) :
    ∃ is', Inv all is' (s.step env noText routed i) ∧ ∀ j, j ∈ is' ↔ j ∈ is ∨ j = i ∧ i < all.length := by
  unfold State.step
  rw [if_neg (by simp [h.dead]), h.todo i]
  cases hx : all[i]? with
  | none =>
    refine ⟨is, h, fun j => ?_⟩
    have := List.getElem?_eq_none_iff.1 hx
    constructor
    · exact .inl
    · rintro (hj | ⟨_, hj⟩)
      · exact hj
      · omega
  | some x =>
    obtain ⟨hlt, hget⟩ := List.getElem?_eq_some_iff.1 hx
    by_cases hi : i ∈ is
    · simp only [Option.map_some, if_pos hi]
      refine ⟨is, h, fun j => ⟨.inl, ?_⟩⟩
      rintro (hj | ⟨rfl, _⟩)
      · exact hj
      · exact hi
    · simp only [Option.map_some, if_neg hi]
      rw [(C151_routes (routed x.2)).1]
      simp only [List.foldl_cons, List.foldl_nil, h.dead, if_true, hall x (hget ▸ List.getElem_mem hlt)]
      refine ⟨is ++ [i], ⟨fun j => ?_, ?_, ?_, ?_, ?_⟩, fun j => ?_⟩
      · by_cases hj : i = j
        · subst hj
          have hl : i < s.todo.length := by
            have := h.todo i
            rw [hx] at this
            exact (List.getElem?_eq_some_iff.1 this).1
          simp [hl, hx]
        · have := h.todo j
          simp only [Bool.false_eq_true, if_false, List.getElem?_set, if_neg hj, this]
          simp [List.mem_append, Ne.symm hj]
      · simp [List.filterMap_append, h.out, hx]
      · simp
      · rw [List.nodup_append]
        exact ⟨h.nodup, by simp, fun a ha b hb => by simp at hb; rintro rfl; exact hi (hb ▸ ha)⟩
      · intro j hj
        rcases List.mem_append.1 hj with hj | hj
        · exact h.mem j hj
        · simp at hj; omega
      · simp [hlt]

theorem inv_run (env : Env V) (noText : V) (routed : Bytes → Srv.Routed) {all : List (V × Bytes)}
    (hall : ∀ x ∈ all, shown env noText x.2 = .ok x.1) (sched : List Nat) {is : List Nat} {s : State V} (h : Inv all is s) :
    ∃ is', Inv all is' (s.run env noText routed sched) ∧ ∀ j, j ∈ is' ↔ j ∈ is ∨ j ∈ sched ∧ j < all.length := by
  induction sched generalizing is s with
  | nil => exact ⟨is, h, by simp⟩
  | cons i sched ih =>
    obtain ⟨is1, h1, m1⟩ := inv_step env noText routed hall h i
    obtain ⟨is2, h2, m2⟩ := ih h1
    refine ⟨is2, h2, fun j => ?_⟩
    rw [m2, m1, List.mem_cons]
    grind

/-- The bytes of a client become one goroutine per text. -/
theorem tasks_of (env : Env V) (hj : env.json.Lawful) (max : Int32) (xs : List (V × Bytes)) (r : Reader) (h : SendsTexts env max xs r) :
    (connLoop env.json max r).1 = xs.map fun x => .single x.2 := by
  obtain ⟨h1, tail, e, ht, he, hr⟩ := h
  have := C81_one_task_each env hj max (xs.map fun x => ⟨⟨1, none, some x.1⟩, none, x.2⟩)
    (by
      intro y hy
      obtain ⟨x, hx, rfl⟩ := List.mem_map.1 hy
      obtain ⟨a, b, c, _⟩ := h1 x hx
      exact ⟨a, b, c, rfl⟩) tail ht e he r (by simpa [Function.comp_def] using hr)
  rw [this]
  simp

theorem shown_of (env : Env V) (hj : env.json.Lawful) (max : Int32) (xs : List (V × Bytes)) (r : Reader) (h : SendsTexts env max xs r)
    (noText : V) (x : V × Bytes) (hx : x ∈ xs) : shown env noText x.2 = .ok x.1 := by
  obtain ⟨a, b, c, d⟩ := h.1 x hx
  obtain ⟨h', hb, _⟩ := C81_bind env hj max.toInt ⟨⟨1, none, some x.1⟩, none, x.2⟩ ⟨a, b, c, rfl⟩ [] (env.builtin .json) (.inr ⟨rfl, rfl⟩) x.1
    noText rfl d
  unfold shown
  rw [show ({ live := x.2 } : Slice) = ⟨x.2, []⟩ from rfl, hb]

end HelloWorld

open HelloWorld in
/-- C151: any number of clients send any texts, in any pieces; their messages are handled in any order.  The server prints the texts whose
goroutines have run, each once, whole, and nothing else; and its process goes on. -/
theorem C151_printed (env : Env V) (hj : env.json.Lawful) (max : Int32) (noText : V) (routed : Bytes → Srv.Routed)
    (clients : List (List (V × Bytes) × Reader)) (hc : ∀ c ∈ clients, SendsTexts env max c.1 c.2) (sched : List Nat) :
    let texts : List V := (clients.map fun c => c.1.map (·.1)).flatten
    let s := (start (clients.map fun c => (connLoop env.json max c.2).1)).run env noText routed sched
    s.dead = false ∧ ∃ is : List Nat, is.Nodup ∧ (∀ i, i ∈ is ↔ i < texts.length ∧ i ∈ sched) ∧ s.out = is.filterMap (texts[·]?) := by
  intro texts s
  have e : texts = (clients.map (·.1)).flatten.map (·.1) := by
    simp only [texts, List.map_flatten, List.map_map, Function.comp_def]
  have hall : ∀ x ∈ (clients.map (·.1)).flatten, shown env noText x.2 = .ok x.1 := by
    intro x hx
    obtain ⟨l, hl, hx⟩ := List.mem_flatten.1 hx
    obtain ⟨c, hm, rfl⟩ := List.mem_map.1 hl
    exact shown_of env hj max c.1 c.2 (hc c hm) noText x hx
  have hs : (clients.map fun c => (connLoop env.json max c.2).1) = clients.map fun c => c.1.map fun x => .single x.2 :=
    List.map_congr_left fun c hm => tasks_of env hj max c.1 c.2 (hc c hm)
  have h0 : Inv (clients.map (·.1)).flatten [] (start (V := V) (clients.map fun c => (connLoop env.json max c.2).1)) := by
    rw [hs]
    refine ⟨fun i => ?_, rfl, rfl, .nil, by simp⟩
    have : (clients.map fun c => c.1.map fun x => Task.single x.2).flatten = (clients.map (·.1)).flatten.map fun x => .single x.2 := by
      simp only [List.map_flatten, List.map_map, Function.comp_def]
    simp only [start, this, List.map_map, List.getElem?_map, Function.comp_def, Task.contexts, List.not_mem_nil, if_false]
  obtain ⟨is, hi, hm⟩ := inv_run env noText routed hall sched h0
  refine ⟨hi.dead, is, hi.nodup, fun i => ?_, ?_⟩
  · rw [hm, e, List.length_map]; simp only [List.not_mem_nil, false_or, and_comm]
  · rw [hi.out, e]; congr 1; funext i; rw [List.getElem?_map]

namespace HelloWorld

private def demoFrame (b : UInt8) : Bytes := Tcpx.frame 1 (Demo.encHeader none) [b]

-- two clients, one of which sends two texts in odd pieces and hangs up in the middle of a third
example : SendsTexts Demo.env 0 [([7], demoFrame 7), ([8], demoFrame 8)]
      [.chunk ((demoFrame 7).take 3), .chunk ((demoFrame 7).drop 3 ++ demoFrame 8 ++ [0,0]), .eof] ∧
    SendsTexts Demo.env 0 [([9], demoFrame 9)] [.chunk (demoFrame 9)] := by
  have h : ∀ b, packed Demo.env [b] = .ok (demoFrame b) := fun b => by
    simp [packed, packWithMarshaller, Demo.env, Demo.json, orErr, Env.builtin, demoFrame]
  have d : ∀ b, Decodes (Demo.env.builtin .json) [b] := fun b => ⟨[b], rfl, by simp, fun _ => rfl⟩
  refine ⟨⟨?_, [0,0], .closed, .inl (by decide), trivial, by decide⟩, ⟨?_, [], .stillOpen, .inl (by decide), trivial, by decide⟩⟩
  · intro x hx
    simp only [List.mem_cons, List.not_mem_nil, or_false] at hx
    rcases hx with rfl | rfl
    · exact ⟨h 7, by decide, fun h => absurd h (by decide), d 7⟩
    · exact ⟨h 8, by decide, fun h => absurd h (by decide), d 8⟩
  · intro x hx
    simp only [List.mem_cons, List.not_mem_nil, or_false] at hx
    subst hx
    exact ⟨h 9, by decide, fun h => absurd h (by decide), d 9⟩

end HelloWorld
end Tcpx
