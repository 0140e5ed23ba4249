import Verif.Lemmas.RegisterAnch
/-!
# Lemmas about goroutines that register and dispatch: a key only one goroutine names, and an id or pattern it registers
-/
namespace Tcpx
namespace Register
open Spec

/-! ## The state of a key -/

/-- The ranges of an anchor of key `k` lie below `n`. -/
structure Below (k : String) (n : Nat) (a : MAnchor) : Prop where
  key : a.key = k
  starts : ∀ x ∈ a.starts, x ≤ n
  ends : ∀ x ∈ a.ends, x ≤ n

theorem Below.mono {k : String} {n n' : Nat} {a : MAnchor} (h : Below k n a) (hn : n ≤ n') : Below k n' a :=
  ⟨h.key, fun x hx => Nat.le_trans (h.starts x hx) hn, fun x hx => Nat.le_trans (h.ends x hx) hn⟩

/-- The map and the list have this anchor of the key, and no other. -/
structure Has (k : String) (s : Srv) (a : MAnchor) : Prop where
  map : s.mux.anchorMap.get? k = some a
  list : s.mux.anchors.filter (fun b => b.key = k) = [a]
  below : Below k s.mux.seed a

/-- What the server has of a key in this state. -/
def St (k : String) (s : Srv) : Period → Prop
  | .never => s.mux.anchorMap.get? k = none ∧ s.mux.anchors.filter (fun b => b.key = k) = []
  | .on f => ∃ a, Has k s a ∧ a.mw = f ∧ a.starts.length = a.ends.length + 1
  | .off => ∃ a, Has k s a ∧ a.starts.length = a.ends.length
  | .again => True

theorem Has.same {k : String} {s s' : Srv} {a : MAnchor} (h : Has k s a) (hs : SameKey k s s') : Has k s' a :=
  ⟨hs.map.trans h.map, hs.list.trans h.list, h.below.mono hs.seed⟩

theorem St.same {k : String} {s s' : Srv} {p : Period} (h : St k s p) (hs : SameKey k s s') : St k s' p := by
  cases p with
  | never => exact ⟨hs.map.trans h.1, hs.list.trans h.2⟩
  | on f => obtain ⟨a, h1, h2⟩ := h; exact ⟨a, h1.same hs, h2⟩
  | off => obtain ⟨a, h1, h2⟩ := h; exact ⟨a, h1.same hs, h2⟩
  | again => trivial

/-- Where a call of the goroutine that names the key is, which began in state `p`. -/
inductive Own (k : String) (s : Srv) (p : Period) : Call → List Act → Loc → Prop
  | wild (c : Call) (r : List Act) (l : Loc) (h : p.after k c = .again) : Own k s p c r l
  | other (c : Call) (r : List Act) (l : Loc) (hc : names k c = false) (h : St k s p) : Own k s p c r l
  | over (c : Call) (r : List Act) (l : Loc) (hr : ∀ a ∈ r, a.anch = false) (h : St k s (p.after k c)) : Own k s p c r l
  | look (f : H) (l : Loc) (h : St k s p) : Own k s p (.use k f) [.useLook k f, .ret .returned] l
  | new (f : H) (l : Loc) (j : Nat) (hj : j ≤ 3) (hp : p = .never) (h : St k s p) (h0 : j ≤ 1 → l.anchor = some ⟨k, f, [], []⟩)
      (h1 : 1 ≤ j → l.idx ≤ s.mux.seed) (h2 : 2 ≤ j → l.anchor = some ⟨k, f, [l.idx], []⟩) : Own k s p (.use k f) (ufull.drop j) l
  | old (f g : H) (l : Loc) (j : Nat) (hj : j ≤ 1) (hp : p = .on g) (h : St k s p) (a : MAnchor) (ha : l.anchor = some a)
      (hl : a.starts.length = a.ends.length + 1) : Own k s p (.use k f) ((uold k).drop j) l
  | un0 (l : Loc) (h : St k s p) : Own k s p (.unUse k) (unCode k) l
  | un (g : H) (l : Loc) (j : Nat) (h1 : 1 ≤ j) (hj : j ≤ 2) (hp : p = .on g) (a : MAnchor) (h : Has k s a)
      (hl : a.starts.length = a.ends.length + 1) (ha : l.anchor = some a) (hi : 2 ≤ j → l.idx ≤ s.mux.seed) :
      Own k s p (.unUse k) ((unCode k).drop j) l
  | un' (g : H) (l : Loc) (j : Nat) (h1 : 3 ≤ j) (hj : j ≤ 4) (hp : p = .on g) (a a' : MAnchor) (h : Has k s a)
      (ha : l.anchor = some a') (hb : Below k s.mux.seed a') (hl : a'.starts.length = a'.ends.length) :
      Own k s p (.unUse k) ((unCode k).drop j) l
  | unOff (l : Loc) (j : Nat) (h1 : 1 ≤ j) (hj : j ≤ 2) (hp : p = .off) (h : St k s p) (a : MAnchor) (ha : l.anchor = some a)
      (hl : a.starts.length = a.ends.length) : Own k s p (.unUse k) ((unCode k).drop j) l

theorem Own.same {k : String} {s s' : Srv} {p : Period} {c : Call} {r : List Act} {l : Loc} (h : Own k s p c r l) (hs : SameKey k s s') :
    Own k s' p c r l := by
  cases h with
  | wild _ _ _ h => exact .wild _ _ _ h
  | other _ _ _ hc h => exact .other _ _ _ hc (h.same hs)
  | over _ _ _ hr h => exact .over _ _ _ hr (h.same hs)
  | look f _ h => exact .look f _ (h.same hs)
  | new f _ j hj hp h h0 h1 h2 => exact .new f _ j hj hp (h.same hs) h0 (fun q => Nat.le_trans (h1 q) hs.seed) h2
  | old f g _ j hj hp h a ha hl => exact .old f g _ j hj hp (h.same hs) a ha hl
  | un0 _ h => exact .un0 _ (h.same hs)
  | un g _ j h1 hj hp a h hl ha hi => exact .un g _ j h1 hj hp a (h.same hs) hl ha fun q => Nat.le_trans (hi q) hs.seed
  | un' g _ j h1 hj hp a a' h ha hb hl => exact .un' g _ j h1 hj hp a a' (h.same hs) ha (hb.mono hs.seed) hl
  | unOff _ j h1 hj hp h a ha hl => exact .unOff _ j h1 hj hp (h.same hs) a ha hl

theorem after_other {k : String} {p : Period} {c : Call} (hc : names k c = false) : p.after k c = p := by
  cases c <;> simp only [Period.after, names, decide_eq_false_iff_not] at hc ⊢ <;> rw [if_neg hc]

theorem code_own (k : String) (s : Srv) (p : Period) (c : Call) (h : St k s p) (l : Loc) : Own k s p c c.code l := by
  by_cases hc : names k c = false
  · exact .other _ _ _ hc h
  · cases c with
    | use k' f =>
      have : k' = k := by simpa [names] using hc
      subst this
      exact .look f l h
    | unUse k' =>
      have : k' = k := by simpa [names] using hc
      subst this
      exact .un0 l h
    | _ => exact absurd rfl hc

/-- A call that does not name the key. -/
theorem Own.st {k : String} {s : Srv} {p : Period} {c : Call} {r : List Act} {l : Loc} (h : Own k s p c r l) (hc : names k c = false) :
    St k s p := by
  cases h with
  | wild _ _ _ h => rw [after_other hc] at h; rw [h]; trivial
  | other _ _ _ _ h => exact h
  | over _ _ _ _ h => rw [after_other hc] at h; exact h
  | look f _ h => exact h
  | new f _ j hj hp h h0 h1 h2 => exact h
  | old f g _ j hj hp h a ha hl => exact h
  | un0 _ h => exact h
  | _ => simp [names] at hc

/-- The call ends. -/
theorem Own.ret {k : String} {s : Srv} {p : Period} {c : Call} {o : Outcome} {r : List Act} {l : Loc} (h : Own k s p c (.ret o :: r) l) :
    St k s (p.after k c) := by
  generalize hq : (Act.ret o :: r) = q at h
  cases h with
  | wild _ _ _ h => rw [h]; trivial
  | other _ _ _ hc h => rw [after_other hc]; exact h
  | over _ _ _ hr h => exact h
  | look f _ h => cases hq
  | new f _ j hj hp h h0 h1 h2 =>
    obtain ⟨_, q⟩ := drop_ufull hj hq.symm
    rcases q with ⟨_, q⟩ | ⟨_, q⟩ | ⟨_, q⟩ | ⟨_, q⟩ <;> cases q
  | old f g _ j hj hp h a ha hl =>
    obtain ⟨_, q⟩ := drop_uold (by omega) hq.symm
    rcases q with ⟨_, q⟩ | ⟨_, q⟩ | ⟨_, q⟩ <;> cases q
  | un0 _ h => cases hq
  | un g _ j h1 hj hp a h hl ha hi =>
    obtain ⟨_, q⟩ := drop_ucode (by omega) hq.symm
    rcases q with ⟨_, q⟩ | ⟨_, q⟩ | ⟨_, q⟩ | ⟨_, q⟩ | ⟨_, q⟩ <;> cases q
  | un' g _ j h1 hj hp a a' h ha hb hl =>
    obtain ⟨_, q⟩ := drop_ucode (by omega) hq.symm
    rcases q with ⟨_, q⟩ | ⟨_, q⟩ | ⟨_, q⟩ | ⟨_, q⟩ | ⟨_, q⟩ <;> cases q
  | unOff _ j h1 hj hp h a ha hl =>
    obtain ⟨_, q⟩ := drop_ucode (by omega) hq.symm
    rcases q with ⟨_, q⟩ | ⟨_, q⟩ | ⟨_, q⟩ | ⟨_, q⟩ | ⟨_, q⟩ <;> cases q

/-- A step of the mutex. -/
theorem Own.pass {k : String} {s : Srv} {p : Period} {c : Call} {a : Act} {r : List Act} {l : Loc} (h : Own k s p c (a :: r) l)
    (hp : a.plain = false) : Own k s p c r l := by
  generalize hq : a :: r = q at h
  cases h with
  | wild _ _ _ h => exact .wild _ _ _ h
  | other _ _ _ hc h => exact .other _ _ _ hc h
  | over _ _ _ hr h => subst hq; exact .over _ _ _ (fun b hb => hr b (List.mem_cons_of_mem _ hb)) h
  | look f _ h => cases hq; simp [Act.plain] at hp
  | new f _ j hj hn h h0 h1 h2 =>
    obtain ⟨e, q⟩ := drop_ufull hj hq.symm
    rcases q with ⟨rfl, rfl⟩ | ⟨rfl, rfl⟩ | ⟨rfl, rfl⟩ | ⟨rfl, rfl⟩ <;> try (simp [Act.plain] at hp; done)
    rw [e]
    exact .new f l 3 (by omega) hn h (by omega) (fun _ => h1 (by omega)) fun _ => h2 (by omega)
  | old f g _ j hj hn h a' ha hl =>
    obtain ⟨e, q⟩ := drop_uold (by omega) hq.symm
    rcases q with ⟨rfl, rfl⟩ | ⟨rfl, rfl⟩ | ⟨rfl, rfl⟩ <;> simp [Act.plain] at hp
  | un0 _ h => cases hq; simp [Act.plain] at hp
  | un g _ j h1 hj hn a' h hl ha hi =>
    obtain ⟨e, q⟩ := drop_ucode (by omega) hq.symm
    rcases q with ⟨rfl, rfl⟩ | ⟨rfl, rfl⟩ | ⟨rfl, rfl⟩ | ⟨rfl, rfl⟩ | ⟨rfl, rfl⟩ <;> first | (simp [Act.plain] at hp; done) | omega
  | un' g _ j h1 hj hn a' a'' h ha hb hl =>
    obtain ⟨e, q⟩ := drop_ucode (by omega) hq.symm
    rcases q with ⟨rfl, rfl⟩ | ⟨rfl, rfl⟩ | ⟨rfl, rfl⟩ | ⟨rfl, rfl⟩ | ⟨rfl, rfl⟩ <;> try (simp [Act.plain] at hp; done)
    rw [e]
    exact .un' g l 4 (by omega) (by omega) hn a' a'' h ha hb hl
  | unOff _ j h1 hj hn h a' ha hl =>
    obtain ⟨e, q⟩ := drop_ucode (by omega) hq.symm
    rcases q with ⟨rfl, rfl⟩ | ⟨rfl, rfl⟩ | ⟨rfl, rfl⟩ | ⟨rfl, rfl⟩ | ⟨rfl, rfl⟩ <;> first | (simp [Act.plain] at hp; done) | omega

theorem replaceFirst_filter {k : String} {a a' : MAnchor} (hk : a'.key = k) {l : List MAnchor} (h : l.filter (fun b => b.key = k) = [a]) :
    (Mux.replaceFirst a' l).filter (fun b => b.key = k) = [a'] := by
  induction l with
  | nil => cases h
  | cons v vs ih =>
    simp only [Mux.replaceFirst]
    by_cases e : v.key = k
    · rw [if_pos (by rw [e, hk])]
      rw [List.filter_cons_of_pos (by simp [e])] at h
      rw [List.filter_cons_of_pos (by simp [hk])]
      simp only [List.cons.injEq] at h
      rw [h.2]
    · rw [if_neg (by rw [hk]; exact e)]
      rw [List.filter_cons_of_neg (by simp [e])] at h ⊢
      exact ih h

/-- Any other step. -/
theorem Own.exec {G : String → MAnchor → Prop} {I : String → Nat → Prop} {F : String → H → Prop} (hkey : ∀ k a, G k a → a.key = k)
    {k : String} {s : Srv} {p : Period} {c : Call} {a : Act} {r : List Act} {l : Loc} (h : Own k s p c (a :: r) l)
    (ho : OnAnch G I F c (a :: r) l) : Own k (a.exec s l r).1 p c (a.exec s l r).2.2 (a.exec s l r).2.1 := by
  have hidx : SameKey k s (Act.exec s l r .index).1 := (exec_sameAnch .index rfl s l r).key k
  generalize hq : a :: r = q at h
  cases h with
  | wild _ _ _ h => exact .wild _ _ _ h
  | other _ _ _ hc h => exact .other _ _ _ hc (h.same (ho.other hkey hc s))
  | over _ _ _ hr h =>
    subst hq
    have ha := hr a List.mem_cons_self
    exact .over _ _ _ (exec_anch a ha s l r fun b hb => hr b (List.mem_cons_of_mem _ hb)) (h.same ((exec_sameAnch a ha s l r).key k))
  | look f _ h =>
    cases hq
    simp only [Act.exec]
    cases p with
    | never =>
      rw [h.1]
      exact .new f _ 0 (by omega) rfl h (fun _ => rfl) (by omega) (by omega)
    | on g =>
      obtain ⟨a', h1, h2, h3⟩ := h
      rw [h1.map]
      exact .old f g _ 0 (by omega) rfl ⟨a', h1, h2, h3⟩ a' rfl h3
    | off => exact .wild _ _ _ (by simp [Period.after, Period.use])
    | again => exact .wild _ _ _ (by simp [Period.after, Period.use])
  | new f _ j hj hp h h0 h1 h2 =>
    subst hp
    obtain ⟨e, q⟩ := drop_ufull hj hq.symm
    rcases q with ⟨rfl, rfl⟩ | ⟨rfl, rfl⟩ | ⟨rfl, rfl⟩ | ⟨rfl, rfl⟩
    · rw [e]
      exact .new f _ 1 (by omega) rfl (h.same hidx) (fun _ => h0 (by omega)) (fun _ => Nat.le_refl _) (by omega)
    · simp only [Act.exec, h0 (by omega), Option.bind_some, MAnchor.callUse, List.length_nil, Nat.lt_irrefl, if_false, List.nil_append]
      rw [e]
      exact .new f _ 2 (by omega) rfl h (by omega) (fun _ => h1 (by omega)) fun _ => rfl
    · rw [e]
      exact .new f _ 3 (by omega) rfl h (by omega) (fun _ => h1 (by omega)) fun _ => h2 (by omega)
    · have hi := h1 (by omega)
      simp only [Act.exec, h2 (by omega), Mux.addMiddlewareAnchor, h.1]
      refine .over _ _ _ (by rw [e]; simp [ufull, Act.anch]) ?_
      simp only [Period.after, if_true, Period.use]
      refine ⟨⟨k, f, [l.idx], []⟩, ⟨?_, ?_, ⟨rfl, by simpa using hi, by simp⟩⟩, rfl, rfl⟩
      · simp only [GoMap.get?_set, if_true]
      · rw [List.filter_append, h.2]; simp
  | old f g _ j hj hp h a' ha hl =>
    subst hp
    obtain ⟨e, q⟩ := drop_uold (by omega) hq.symm
    rcases q with ⟨rfl, rfl⟩ | ⟨rfl, rfl⟩ | ⟨rfl, rfl⟩
    · rw [e]
      exact .old f g _ 1 (by omega) rfl (h.same hidx) a' ha hl
    · have : a'.callUse l.idx = none := by unfold MAnchor.callUse; rw [if_pos (by omega)]
      simp only [Act.exec, ha, Option.bind_some, this]
      refine .over _ _ _ (unwind_anch r) ?_
      simpa only [Period.after, if_true, Period.use] using h
    · omega
  | un0 _ h =>
    cases hq
    simp only [Act.exec]
    cases p with
    | never =>
      rw [h.1]
      refine .over _ _ _ (by simp [unwind, Act.anch]) ?_
      simpa only [Period.after, if_true, Period.unUse] using h
    | on g =>
      obtain ⟨a', h1, h2, h3⟩ := h
      rw [h1.map]
      exact .un g _ 1 (by omega) (by omega) rfl a' h1 h3 rfl (by omega)
    | off =>
      obtain ⟨a', h1, h2⟩ := h
      rw [h1.map]
      exact .unOff _ 1 (by omega) (by omega) rfl ⟨a', h1, h2⟩ a' rfl h2
    | again => exact .wild _ _ _ (by simp [Period.after, Period.unUse])
  | un g _ j h1 hj hp a' h hl ha hi =>
    subst hp
    obtain ⟨e, q⟩ := drop_ucode (by omega) hq.symm
    rcases q with ⟨rfl, rfl⟩ | ⟨rfl, rfl⟩ | ⟨rfl, rfl⟩ | ⟨rfl, rfl⟩ | ⟨rfl, rfl⟩
    · omega
    · rw [e]
      exact .un g _ 2 (by omega) (by omega) rfl a' (h.same hidx) hl ha fun _ => Nat.le_refl _
    · have : a'.callUnUse l.idx = some { a' with ends := a'.ends ++ [l.idx] } := by
        unfold MAnchor.callUnUse; rw [if_neg (by omega)]
      simp only [Act.exec, ha, Option.bind_some, this]
      rw [e]
      refine .un' g _ 3 (by omega) (by omega) rfl a' _ h rfl ⟨h.below.key, h.below.starts, ?_⟩ (by simp [hl])
      intro x hx
      rcases List.mem_append.1 hx with hx | hx
      · exact h.below.ends x hx
      · simp only [List.mem_singleton] at hx; subst hx; exact hi (by omega)
    · omega
    · omega
  | un' g _ j h1 hj hp a' a'' h ha hb hl =>
    subst hp
    obtain ⟨e, q⟩ := drop_ucode (by omega) hq.symm
    rcases q with ⟨rfl, rfl⟩ | ⟨rfl, rfl⟩ | ⟨rfl, rfl⟩ | ⟨rfl, rfl⟩ | ⟨rfl, rfl⟩
    · omega
    · omega
    · omega
    · rw [e]
      exact .un' g _ 4 (by omega) (by omega) rfl a' a'' h ha hb hl
    · simp only [Act.exec, ha, Mux.replaceMiddlewareAnchor, hb.key, h.map, Out.ret, Bool.false_eq_true, if_false]
      refine .over _ _ _ (by rw [e]; simp [unCode, Act.anch]) ?_
      simp only [Period.after, if_true, Period.unUse]
      refine ⟨a'', ⟨?_, replaceFirst_filter hb.key h.list, hb⟩, hl⟩
      simp only [GoMap.get?_set, if_true]
  | unOff _ j h1 hj hp h a' ha hl =>
    subst hp
    obtain ⟨e, q⟩ := drop_ucode (by omega) hq.symm
    rcases q with ⟨rfl, rfl⟩ | ⟨rfl, rfl⟩ | ⟨rfl, rfl⟩ | ⟨rfl, rfl⟩ | ⟨rfl, rfl⟩
    · omega
    · rw [e]
      exact .unOff _ 2 (by omega) (by omega) rfl (h.same hidx) a' ha hl
    · have : a'.callUnUse l.idx = none := by unfold MAnchor.callUnUse; rw [if_pos (by omega)]
      simp only [Act.exec, ha, Option.bind_some, this]
      refine .over _ _ _ (unwind_anch r) ?_
      simpa only [Period.after, if_true, Period.unUse] using h
    · omega
    · omega

/-! ## The goroutine that names the key -/

/-- The state of the key is that made by the calls of goroutine `n` that are over. -/
structure KeyInv (k : String) (n : Nat) (p0 : Period) (progs : List (List Call)) (y : Sys) : Prop where
  all : ∀ (i : Nat) (g : Gor), y.gors[i]? = some g → progs[i]? = some g.all
  own : ∀ g, y.gors[n]? = some g → (g.cur = none → St k y.srv (period k p0 (g.log.reverse.map (·.1)))) ∧
    ∀ c r, g.cur = some (c, r) → Own k y.srv (period k p0 (g.log.reverse.map (·.1))) c r g.loc

theorem all_keep {progs : List (List Call)} {y : Sys} (h : ∀ (i : Nat) (g : Gor), y.gors[i]? = some g → progs[i]? = some g.all) (j : Nat) :
    ∀ (i : Nat) (g : Gor), (y.step j).gors[i]? = some g → progs[i]? = some g.all := by
  intro i g hg
  have := step_all y i j
  rw [hg] at this
  cases hy : y.gors[i]? with
  | none => rw [hy] at this; cases this
  | some g0 =>
    rw [hy] at this
    simp only [Option.map_some, Option.some.injEq] at this
    rw [h i g0 hy, this]

theorem cur_mem {g : Gor} {c : Call} {r : List Act} (h : g.cur = some (c, r)) : c ∈ g.all := by simp [Gor.all, h]

theorem key_step {G : String → MAnchor → Prop} {I : String → Nat → Prop} {F : String → H → Prop} {A : String → Prop} {lo : Nat}
    (hC : Clo G I F A lo) {k : String} {n : Nat} {p0 : Period} {progs : List (List Call)}
    (hoth : ∀ (j : Nat) (q : List Call), progs[j]? = some q → j ≠ n → ∀ c ∈ q, names k c = false) {y : Sys} (ha : AI G I F A lo y)
    (h : KeyInv k n p0 progs y) (j : Nat) : KeyInv k n p0 progs (y.step j) := by
  refine ⟨all_keep h.all j, ?_⟩
  have key : ∀ (g' : Gor) (s : Srv) (w : Option Nat) (rd : List Nat), (j ≠ n → SameKey k y.srv s) →
      (j = n → (g'.cur = none → St k s (period k p0 (g'.log.reverse.map (·.1)))) ∧
        ∀ c r, g'.cur = some (c, r) → Own k s (period k p0 (g'.log.reverse.map (·.1))) c r g'.loc) →
      ∀ g, (⟨s, w, rd, y.gors.set j g'⟩ : Sys).gors[n]? = some g → (g.cur = none → St k s (period k p0 (g.log.reverse.map (·.1)))) ∧
        ∀ c r, g.cur = some (c, r) → Own k s (period k p0 (g.log.reverse.map (·.1))) c r g.loc := by
    intro g' s w rd h1 h2 g hg
    rcases get_set _ _ _ _ _ hg with ⟨e, rfl, _⟩ | ⟨hne, hg⟩
    · exact h2 e.symm
    · obtain ⟨q1, q2⟩ := h.own g hg
      have hs := h1 (Ne.symm hne)
      exact ⟨fun e => (q1 e).same hs, fun c r e => (q2 c r e).same hs⟩
  have hw := went y j
  generalize y.step j = z at hw
  have pass : ∀ {a : Act} {c : Call} {r : List Act} (g : Gor) (w : Option Nat) (rd : List Nat), y.gors[j]? = some g → g.cur = some (c, a :: r) →
      a.plain = false → ∀ g', (⟨y.srv, w, rd, y.gors.set j { g with cur := some (c, r) }⟩ : Sys).gors[n]? = some g' →
        (g'.cur = none → St k y.srv (period k p0 (g'.log.reverse.map (·.1)))) ∧
        ∀ c r, g'.cur = some (c, r) → Own k y.srv (period k p0 (g'.log.reverse.map (·.1))) c r g'.loc := by
    intro a c r g w rd hg hcur hp
    refine key _ _ w rd (fun _ => SameKey.rfl' _ _) ?_
    rintro rfl
    refine ⟨by simp, ?_⟩
    intro c' r' e
    simp only [Option.some.injEq, Prod.mk.injEq] at e
    obtain ⟨rfl, rfl⟩ := e
    exact ((h.own g hg).2 _ _ hcur).pass hp
  cases hw with
  | stay => exact h.own
  | begin g c cs hg hcur ht =>
    refine key _ _ _ _ (fun _ => SameKey.rfl' _ _) ?_
    rintro rfl
    refine ⟨by simp, ?_⟩
    intro c' r' e
    simp only [Option.some.injEq, Prod.mk.injEq] at e
    obtain ⟨rfl, rfl⟩ := e
    exact code_own k _ _ _ ((h.own g hg).1 hcur) _
  | lock g c r hg hcur _ _ => exact pass g _ _ hg hcur rfl
  | unlock g c r hg hcur _ => exact pass g _ _ hg hcur rfl
  | rlock g c r hg hcur _ => exact pass g _ _ hg hcur rfl
  | runlock g c r hg hcur _ => exact pass g _ _ hg hcur rfl
  | ret g c o r hg hcur =>
    refine key _ _ _ _ (fun _ => SameKey.rfl' _ _) ?_
    rintro rfl
    refine ⟨fun _ => ?_, by intro c r e; cases e⟩
    have := ((h.own g hg).2 _ _ hcur).ret
    simpa only [period, List.reverse_cons, List.map_append, List.map_cons, List.map_nil, List.foldl_append, List.foldl_cons, List.foldl_nil] using this
  | plain g c a r hg hcur hp =>
    have ho := ha.gor j g hg _ _ hcur
    refine key _ _ _ _ ?_ ?_
    · intro hne
      exact ho.other hC.key (hoth j _ (h.all j g hg) hne c (cur_mem hcur)) _
    · rintro rfl
      refine ⟨by simp, ?_⟩
      intro c' r' e
      simp only [Option.some.injEq, Prod.mk.injEq] at e
      obtain ⟨rfl, rfl⟩ := e
      exact ((h.own g hg).2 _ _ hcur).exec hC.key ho

/-! ## The id or pattern registered -/

def regAct : Key → Act
  | .id id => .idAnchor id
  | .url p => .urlAnchor p

def rtail (key : Key) : List Act := [.index, .lock, regAct key, .unlock, .ret .returned]

/-- The steps that write the index of what is registered. -/
def Act.regs (key : Key) : Act → Bool
  | .idAnchor id => key = .id id
  | .urlAnchor p => key = .url p
  | _ => false

/-- The steps of a registration before the index is drawn. -/
def Act.early : Act → Bool
  | .lock => true
  | .unlock => true
  | .allow => true
  | .selfMw _ _ => true
  | .handle _ _ => true
  | .urlPut _ _ => true
  | .urlAllow _ _ => true
  | _ => false

theorem regAct_regs (key : Key) : (regAct key).regs key = true := by cases key <;> simp [regAct, Act.regs]

theorem exec_anchorOf (key : Key) (a : Act) (ha : a.regs key = false) (s : Srv) (l : Loc)
    (hd : a.dels = true → ∀ id, key = .id id → l.hb ≠ id) (r : List Act) :
    anchorOf (a.exec s l r).1.mux key = anchorOf s.mux key := by
  cases a <;> try (simp [Act.regs] at ha; done)
  case delIdAnchor =>
    cases key with
    | id id =>
      have hne : ¬ id = l.hb := fun e => hd rfl id rfl e.symm
      simp only [Act.exec, anchorOf, GoMap.get?_delete, if_neg hne]
    | url p => rfl
  case idAnchor id =>
    simp only [Act.exec]
    split
    · rfl
    · cases key with
      | id id' =>
        have : id' ≠ id := by simpa [Act.regs] using ha
        simp only [anchorOf, GoMap.get?_set, if_neg this]
      | url p => rfl
  case urlAnchor p =>
    simp only [Act.exec]
    split
    · rfl
    · cases key with
      | id id' => rfl
      | url p' =>
        have : p' ≠ p := by simpa [Act.regs] using ha
        simp only [anchorOf, GoMap.get?_set, if_neg this]
  case replAnchor =>
    simp only [Act.exec]; split
    · rfl
    · dsimp only; unfold Mux.replaceMiddlewareAnchor
      split <;> exact anchorOf_eq rfl rfl key
  case addAnchor =>
    simp only [Act.exec]; split
    · rfl
    · dsimp only; unfold Mux.addMiddlewareAnchor
      split <;> exact anchorOf_eq rfl rfl key
  case urlPut =>
    simp only [Act.exec]
    unfold Mux.addURLPatternHandler
    split <;> exact anchorOf_eq rfl rfl key
  case selfMw =>
    simp only [Act.exec]; split
    · rfl
    · dsimp only; split <;> exact anchorOf_eq rfl rfl key
  all_goals simp only [Act.exec]
  all_goals (repeat' split)
  all_goals exact anchorOf_eq rfl rfl key

theorem unwind_regs (key : Key) (r : List Act) : ∀ a ∈ unwind r, a.regs key = false := by
  unfold unwind; split <;> simp [Act.regs]

theorem exec_regs (key : Key) (a : Act) (s : Srv) (l : Loc) (r : List Act) (hr : ∀ b ∈ r, b.regs key = false) :
    ∀ b ∈ (a.exec s l r).2.2, b.regs key = false := by
  have hu := unwind_regs key r
  cases a <;> simp only [Act.exec]
  all_goals (repeat' split)
  all_goals first
    | exact hr
    | exact hu
    | (intro b hb; simp only [List.mem_cons] at hb
       rcases hb with rfl | hb
       · rfl
       · exact hr b hb)
    | (simp [Act.regs, locked]; done)

theorem code_regs (key : Key) (c : Call) (hc : c.key ≠ some key) (hr : ∀ id f, key = .id id → c ≠ .rewriteHeartBeat id f) :
    ∀ a ∈ c.code, a.regs key = false := by
  cases c with
  | addHandler id hs =>
    have : key ≠ .id id := by rintro rfl; exact hc rfl
    simp only [Call.code, addHandlerCode]
    (repeat' split) <;> simp [locked, Act.regs, this]
  | useGlobal ms => simp [Call.code, locked, Act.regs]
  | use k f => simp [Call.code, Act.regs]
  | unUse k => simp [Call.code, locked, Act.regs]
  | any p hs =>
    have : key ≠ .url p := by rintro rfl; exact hc rfl
    simp only [Call.code, anyCode]; (repeat' split) <;> simp [locked, Act.regs, this]
  | rewriteHeartBeat id' f =>
    have : key ≠ .id id' := fun e => hr id' f e rfl
    simp [Call.code, addHandlerCode, locked, Act.regs, this]
  | listen => simp [Call.code, Act.regs]
  | byId i => simp [Call.code, rlocked, Act.regs]
  | byUrl p => simp [Call.code, rlocked, Act.regs]

/-- Where a call is that registers it. -/
inductive OnReg (key : Key) : List Act → Prop
  | early (x : List Act) (h : ∀ a ∈ x, a.early = true) : OnReg key (x ++ rtail key)
  | mid (j : Nat) (h1 : 1 ≤ j) (hj : j ≤ 4) : OnReg key ((rtail key).drop j)
  | refused (r : List Act) (h : Refused r) : OnReg key r

theorem code_onReg (key : Key) (c : Call) (hc : c.key = some key) : OnReg key c.code := by
  cases c with
  | addHandler id hs =>
    simp only [Call.key, Option.some.injEq] at hc
    subst hc
    simp only [Call.code, addHandlerCode]
    split
    · exact .refused _ (.inr rfl)
    · next f _ =>
      have := OnReg.early (key := .id id) ((if hs.length > 1 then locked (.selfMw id hs.dropLast) else []) ++ ([.allow] ++ locked (.handle id f)))
        (by split <;> simp [locked, Act.early])
      simpa [rtail, regAct, locked] using this
  | any p hs =>
    simp only [Call.key, Option.some.injEq] at hc
    subst hc
    simp only [Call.code, anyCode]
    split
    · exact .refused _ (.inr rfl)
    · have := OnReg.early (key := .url p) ((if hs.length > 1 then [.urlPut p hs] else []) ++ [.urlAllow p hs]) (by split <;> simp [Act.early])
      simpa [rtail, regAct, locked] using this
  | _ => simp [Call.key] at hc

theorem unwind_refused {r : List Act} (h : ∀ t, r ≠ .runlock :: t) : Refused (unwind r) := by
  unfold unwind
  split
  · exact .inl rfl
  · next t => exact absurd rfl (h t)
  · exact .inr rfl

theorem drop_rtail {key : Key} {j : Nat} {a : Act} {r : List Act} (h1 : 1 ≤ j) (hj : j ≤ 4) (h : (rtail key).drop j = a :: r) :
    r = (rtail key).drop (j + 1) ∧ (j = 1 ∧ a = .lock ∨ j = 2 ∧ a = regAct key ∨ j = 3 ∧ a = .unlock ∨ j = 4 ∧ a = .ret .returned) := by
  have hc : j = 1 ∨ j = 2 ∨ j = 3 ∨ j = 4 := by omega
  rcases hc with rfl | rfl | rfl | rfl <;>
    (simp only [rtail, List.drop_succ_cons, List.drop_zero, List.cons.injEq] at h
     obtain ⟨rfl, rfl⟩ := h
     simp [rtail])

theorem early_exec {key : Key} {a : Act} {x : List Act} (ha : a.early = true) (hx : ∀ b ∈ x, b.early = true) (s : Srv) (l : Loc) :
    (∃ x', (∀ b ∈ x', b.early = true) ∧ (a.exec s l (x ++ rtail key)).2.2 = x' ++ rtail key) ∨ Refused (a.exec s l (x ++ rtail key)).2.2 := by
  have hu : Refused (unwind (x ++ rtail key)) := by
    refine unwind_refused ?_
    intro t e
    cases x with
    | nil => simp [rtail] at e
    | cons b x =>
      simp only [List.cons_append, List.cons.injEq] at e
      have := hx b List.mem_cons_self
      rw [e.1] at this; cases this
  cases a <;> try (simp [Act.early] at ha; done)
  all_goals simp only [Act.exec]
  all_goals (repeat' split)
  all_goals first
    | exact .inl ⟨x, hx, rfl⟩
    | exact .inr hu
    | (refine .inl ⟨.urlPut _ _ :: x, ?_, rfl⟩
       intro b hb
       rcases List.mem_cons.1 hb with rfl | hb
       · rfl
       · exact hx b hb)

/-- A step of the mutex. -/
theorem OnReg.pass {key : Key} {a : Act} {r : List Act} (h : OnReg key (a :: r)) (hp : a.plain = false) (hret : ∀ o, a ≠ .ret o) : OnReg key r := by
  generalize hq : a :: r = q at h
  cases h with
  | early x hx =>
    cases x with
    | nil => simp only [rtail, List.nil_append, List.cons.injEq] at hq; rw [hq.1] at hp; cases hp
    | cons b x =>
      simp only [List.cons_append, List.cons.injEq] at hq
      rw [hq.2]
      exact .early x fun c hc => hx c (List.mem_cons_of_mem _ hc)
  | mid j h1 hj =>
    obtain ⟨e, q⟩ := drop_rtail h1 hj hq.symm
    rw [e]
    refine .mid (j + 1) (by omega) ?_
    rcases q with ⟨rfl, _⟩ | ⟨rfl, _⟩ | ⟨rfl, _⟩ | ⟨rfl, q⟩ <;> first | omega | exact absurd q (hret _)
  | refused _ h =>
    subst hq
    rcases h with h | h
    · cases h; exact .refused _ (.inr rfl)
    · cases h; exact absurd rfl (hret _)

theorem regAct_plain (key : Key) : (regAct key).plain = true := by cases key <;> rfl

/-- Any other step. -/
theorem OnReg.exec {key : Key} {a : Act} {r : List Act} (h : OnReg key (a :: r)) (hp : a.plain = true) (s : Srv) (l : Loc) :
    OnReg key (a.exec s l r).2.2 := by
  generalize hq : a :: r = q at h
  cases h with
  | early x hx =>
    cases x with
    | nil =>
      simp only [rtail, List.nil_append, List.cons.injEq] at hq
      obtain ⟨rfl, rfl⟩ := hq
      exact .mid 1 (by omega) (by omega)
    | cons b x =>
      simp only [List.cons_append, List.cons.injEq] at hq
      obtain ⟨rfl, rfl⟩ := hq
      rcases early_exec (hx a List.mem_cons_self) (fun c hc => hx c (List.mem_cons_of_mem _ hc)) s l with ⟨x', q1, q2⟩ | q
      · rw [q2]; exact .early x' q1
      · exact .refused _ q
  | mid j h1 hj =>
    obtain ⟨e, q⟩ := drop_rtail h1 hj hq.symm
    rcases q with ⟨rfl, rfl⟩ | ⟨rfl, rfl⟩ | ⟨rfl, rfl⟩ | ⟨rfl, rfl⟩ <;> try (simp [Act.plain] at hp; done)
    have hd : OnReg key r := e ▸ .mid 3 (by omega) (by omega)
    have hu : OnReg key (unwind r) := by rw [e]; exact .refused _ (.inl rfl)
    cases key <;> simp only [regAct, Act.exec] <;> split <;> assumption
  | refused _ h =>
    subst hq
    rcases h with h | h
    · cases h; simp [Act.plain] at hp
    · cases h; simp [Act.plain] at hp

/-- The index is drawn and about to be written. -/
def AtReg (key : Key) (n : Nat) (y : Sys) (x : Nat) : Prop :=
  ∃ (g : Gor) (c : Call) (j : Nat), y.gors[n]? = some g ∧ 1 ≤ j ∧ j ≤ 2 ∧ g.cur = some (c, (rtail key).drop j) ∧ g.loc.idx = x

/-- Once the index is known, `Cov` holds of it. -/
structure RegInv (key : Key) (n : Nat) (progs : List (List Call)) (Cov : Nat → Sys → Prop) (y : Sys) : Prop where
  all : ∀ (i : Nat) (g : Gor), y.gors[i]? = some g → progs[i]? = some g.all
  code : ∀ (i : Nat) (g : Gor), y.gors[i]? = some g → ∀ c r, g.cur = some (c, r) →
    (c.key = some key → OnReg key r) ∧ (c.key ≠ some key → ∀ a ∈ r, a.regs key = false)
  cov : ∀ x, anchorOf y.srv.mux key = some x ∨ AtReg key n y x → Cov x y

theorem regAct_mem (key : Key) {j : Nat} (h1 : 1 ≤ j) (hj : j ≤ 2) : regAct key ∈ (rtail key).drop j := by
  have hc : j = 1 ∨ j = 2 := by omega
  rcases hc with rfl | rfl <;> simp [rtail]

theorem OnReg.before {key : Key} {a : Act} {r : List Act} (h : OnReg key (a :: r)) (s : Srv) (l : Loc) {j : Nat} (h1 : 1 ≤ j) (hj : j ≤ 2)
    (hr : r = (rtail key).drop j ∨ (a.plain = true ∧ (a.exec s l r).2.2 = (rtail key).drop j)) :
    (j = 1 ∧ a = .index ∧ r = (rtail key).drop 1) ∨ (j = 2 ∧ a = .lock ∧ r = (rtail key).drop 2) := by
  have hc : j = 1 ∨ j = 2 := by omega
  have hlen : ((rtail key).drop j).length = 5 - j := by simp [rtail]
  have href : ∀ {q : List Act}, Refused q → q ≠ (rtail key).drop j := by
    rintro q (rfl | rfl) e <;> (rw [← e] at hlen; simp at hlen; omega)
  generalize hq : a :: r = q at h
  cases h with
  | early x hx =>
    cases x with
    | nil =>
      simp only [rtail, List.nil_append, List.cons.injEq] at hq
      obtain ⟨rfl, rfl⟩ := hq
      have hr : (rtail key).drop 1 = (rtail key).drop j := by
        rcases hr with hr | ⟨_, hr⟩
        · exact hr
        · exact hr
      rcases hc with rfl | rfl
      · exact .inl ⟨rfl, rfl, rfl⟩
      · simp [rtail] at hr
    | cons b x =>
      exfalso
      simp only [List.cons_append, List.cons.injEq] at hq
      obtain ⟨rfl, rfl⟩ := hq
      have long : ∀ x' : List Act, x' ++ rtail key ≠ (rtail key).drop j := by
        intro x' e
        have := congrArg List.length e
        rw [hlen] at this
        simp [rtail] at this
        omega
      rcases hr with hr | ⟨_, hr⟩
      · exact long _ hr
      · rcases early_exec (hx a List.mem_cons_self) (fun c hc => hx c (List.mem_cons_of_mem _ hc)) s l with ⟨x', _, q2⟩ | q
        · exact long _ (q2.symm.trans hr)
        · exact href q hr
  | mid i h1' hj' =>
    obtain ⟨e, q⟩ := drop_rtail h1' hj' hq.symm
    have hlr : r.length = 4 - i := by rw [e]; simp [rtail]
    rcases q with ⟨rfl, rfl⟩ | ⟨rfl, rfl⟩ | ⟨rfl, rfl⟩ | ⟨rfl, rfl⟩
    · rcases hr with hr | ⟨hp, _⟩
      · rw [hr, hlen] at hlr
        exact .inr ⟨by omega, rfl, e⟩
      · cases hp
    · exfalso
      rcases hr with hr | ⟨_, hr⟩
      · rw [hr, hlen] at hlr; omega
      · have hu : Refused (unwind r) := by rw [e]; exact .inl rfl
        have h2 : r ≠ (rtail key).drop j := by intro q; rw [q, hlen] at hlr; omega
        cases key <;> simp only [regAct, Act.exec] at hr <;> split at hr <;> first | exact h2 hr | exact href hu hr
    · exfalso
      rcases hr with hr | ⟨hp, _⟩
      · rw [hr, hlen] at hlr; omega
      · cases hp
    · exfalso
      rcases hr with hr | ⟨hp, _⟩
      · rw [hr, hlen] at hlr; omega
      · cases hp
  | refused _ h =>
    exfalso
    subst hq
    rcases h with h | h <;> cases h
    · rcases hr with hr | ⟨hp, _⟩
      · rw [← hr] at hlen; simp at hlen; omega
      · cases hp
    · rcases hr with hr | ⟨hp, _⟩
      · rw [← hr] at hlen; simp at hlen; omega
      · cases hp

theorem code_not_mid {key : Key} {c : Call} (hc : c.key = some key) {j : Nat} (h1 : 1 ≤ j) (hj : j ≤ 2) : c.code ≠ (rtail key).drop j := by
  intro e
  have hlen := congrArg List.length e
  have hl' : ((rtail key).drop j).length = 5 - j := by simp [rtail]
  rw [hl'] at hlen
  cases c with
  | addHandler id hs =>
    simp only [Call.code, addHandlerCode] at hlen
    (repeat' split at hlen) <;> simp [locked] at hlen <;> omega
  | any p hs =>
    simp only [Call.code, anyCode] at hlen
    (repeat' split at hlen) <;> simp [locked] at hlen <;> omega
  | _ => simp [Call.key] at hc

theorem reg_step {key : Key} {n : Nat} {progs : List (List Call)} {Cov : Nat → Sys → Prop} {y : Sys}
    (hprog : ∀ (j : Nat) (q : List Call), progs[j]? = some q → ∀ c ∈ q, (∀ id f, key = .id id → c ≠ .rewriteHeartBeat id f) ∧
      (j ≠ n → c.key ≠ some key))
    (hnd : ∀ id, key = .id id → NoDel id y)
    (hstable : ∀ x j, Cov x y → Cov x (y.step j))
    (hgain : ∀ g c, y.gors[n]? = some g → g.cur = some (c, rtail key) → c.key = some key → Cov (y.srv.mux.seed + 1) (y.step n))
    (h : RegInv key n progs Cov y) (j : Nat) : RegInv key n progs Cov (y.step j) := by
  have hcode : ∀ (i : Nat) (g : Gor), (y.step j).gors[i]? = some g → ∀ c r, g.cur = some (c, r) →
      (c.key = some key → OnReg key r) ∧ (c.key ≠ some key → ∀ a ∈ r, a.regs key = false) := by
    have key' : ∀ (g' : Gor) (s : Srv) (w : Option Nat) (rd : List Nat), (∀ c r, g'.cur = some (c, r) →
        (c.key = some key → OnReg key r) ∧ (c.key ≠ some key → ∀ a ∈ r, a.regs key = false)) →
        ∀ (i : Nat) (g : Gor), (⟨s, w, rd, y.gors.set j g'⟩ : Sys).gors[i]? = some g → ∀ c r, g.cur = some (c, r) →
        (c.key = some key → OnReg key r) ∧ (c.key ≠ some key → ∀ a ∈ r, a.regs key = false) := by
      intro g' s w rd h1 i g hg
      rcases get_set _ _ _ _ _ hg with ⟨rfl, rfl, _⟩ | ⟨_, hg⟩
      · exact h1
      · exact h.code i g hg
    have hw := went y j
    generalize y.step j = z at hw
    have pass : ∀ {a : Act} {c : Call} {r : List Act} (g : Gor) (w : Option Nat) (rd : List Nat), y.gors[j]? = some g → g.cur = some (c, a :: r) →
        a.plain = false → (∀ o, a ≠ .ret o) →
        ∀ (i : Nat) (g' : Gor), (⟨y.srv, w, rd, y.gors.set j { g with cur := some (c, r) }⟩ : Sys).gors[i]? = some g' → ∀ c r, g'.cur = some (c, r) →
        (c.key = some key → OnReg key r) ∧ (c.key ≠ some key → ∀ a ∈ r, a.regs key = false) := by
      intro a c r g w rd hg hcur hp hret
      refine key' _ _ w rd ?_
      intro c' r' e
      simp only [Option.some.injEq, Prod.mk.injEq] at e
      obtain ⟨rfl, rfl⟩ := e
      obtain ⟨q1, q2⟩ := h.code j g hg _ _ hcur
      exact ⟨fun q => (q1 q).pass hp hret, fun q b hb => q2 q b (List.mem_cons_of_mem _ hb)⟩
    cases hw with
    | stay => exact h.code
    | begin g c cs hg hcur ht =>
      refine key' _ _ _ _ ?_
      intro c' r' e
      simp only [Option.some.injEq, Prod.mk.injEq] at e
      obtain ⟨rfl, rfl⟩ := e
      have := hprog j _ (h.all j g hg) c (by simp [Gor.all, ht])
      exact ⟨code_onReg key c, fun q => code_regs key c q this.1⟩
    | lock g c r hg hcur _ _ => exact pass g _ _ hg hcur rfl (by intro o e; cases e)
    | unlock g c r hg hcur _ => exact pass g _ _ hg hcur rfl (by intro o e; cases e)
    | rlock g c r hg hcur _ => exact pass g _ _ hg hcur rfl (by intro o e; cases e)
    | runlock g c r hg hcur _ => exact pass g _ _ hg hcur rfl (by intro o e; cases e)
    | ret g c o r hg hcur => exact key' _ _ _ _ (by intro c r e; cases e)
    | plain g c a r hg hcur hp =>
      refine key' _ _ _ _ ?_
      intro c' r' e
      simp only [Option.some.injEq, Prod.mk.injEq] at e
      obtain ⟨rfl, rfl⟩ := e
      obtain ⟨q1, q2⟩ := h.code j g hg _ _ hcur
      exact ⟨fun q => (q1 q).exec hp _ _, fun q => exec_regs key a _ _ _ fun b hb => q2 q b (List.mem_cons_of_mem _ hb)⟩
  refine ⟨all_keep h.all j, hcode, ?_⟩
  intro x hx
  -- either known before, or drawn in this step
  suffices hs : (anchorOf y.srv.mux key = some x ∨ AtReg key n y x) ∨
      (j = n ∧ x = y.srv.mux.seed + 1 ∧ ∃ g c, y.gors[n]? = some g ∧ g.cur = some (c, rtail key) ∧ c.key = some key) by
    rcases hs with hs | ⟨rfl, rfl, g, c, q1, q2, q3⟩
    · exact hstable x j (h.cov x hs)
    · exact hgain g c q1 q2 q3
  rcases hx with hx | hx
  · -- the index written
    have hw := went y j
    generalize y.step j = z at hw hx
    cases hw with
    | plain g c a r hg hcur hp =>
      by_cases hr : a.regs key = false
      · rw [exec_anchorOf key a hr _ _ fun e id q => hnd id q g (List.mem_of_getElem? hg) _ _ _ hcur e] at hx; exact .inl (.inl hx)
      · obtain ⟨q1, q2⟩ := h.code j g hg _ _ hcur
        have hk : c.key = some key := Classical.byContradiction fun q => hr (q2 q a List.mem_cons_self)
        have hjn : j = n := Classical.byContradiction fun q => (hprog j _ (h.all j g hg) c (cur_mem hcur)).2 q hk
        subst hjn
        have ho := q1 hk
        generalize hq : a :: r = q at ho
        cases ho with
        | early x' hx' =>
          exfalso
          cases x' with
          | nil =>
            simp only [rtail, List.nil_append, List.cons.injEq] at hq
            rw [hq.1] at hr; exact hr rfl
          | cons b x' =>
            simp only [List.cons_append, List.cons.injEq] at hq
            have := hx' b List.mem_cons_self
            rw [← hq.1] at this
            cases a <;> first | (exact hr rfl) | (simp [Act.early] at this)
        | mid i h1 hi =>
          obtain ⟨e, q⟩ := drop_rtail h1 hi hq.symm
          rcases q with ⟨rfl, rfl⟩ | ⟨rfl, rfl⟩ | ⟨rfl, rfl⟩ | ⟨rfl, rfl⟩ <;> try (exact absurd rfl hr)
          refine .inl ?_
          by_cases hn : anchorOf y.srv.mux key = none
          · refine .inr ⟨g, c, 2, hg, by omega, by omega, by rw [hcur, hq], ?_⟩
            cases key with
            | id id =>
              simp only [anchorOf] at hn
              simpa only [regAct, Act.exec, hn, anchorOf, GoMap.get?_set, if_true, Option.some.injEq] using hx
            | url p =>
              simp only [anchorOf] at hn
              simpa only [regAct, Act.exec, hn, anchorOf, GoMap.get?_set, if_true, Option.some.injEq] using hx
          · refine .inl ?_
            cases hv : anchorOf y.srv.mux key with
            | none => exact absurd hv hn
            | some v =>
              cases key with
              | id id =>
                simp only [anchorOf] at hv
                simpa only [regAct, Act.exec, hv, anchorOf] using hx
              | url p =>
                simp only [anchorOf] at hv
                simpa only [regAct, Act.exec, hv, anchorOf] using hx
        | refused _ h =>
          exfalso
          subst hq
          rcases h with h | h <;> cases h <;> exact hr rfl
    | stay => exact .inl (.inl hx)
    | begin => exact .inl (.inl hx)
    | lock => exact .inl (.inl hx)
    | unlock => exact .inl (.inl hx)
    | rlock => exact .inl (.inl hx)
    | runlock => exact .inl (.inl hx)
    | ret => exact .inl (.inl hx)
  · -- the index drawn
    obtain ⟨g', c, i, hg', h1, hi, hcur', hidx⟩ := hx
    have hk : c.key = some key := by
      apply Classical.byContradiction
      intro q
      have := (hcode n g' hg' _ _ hcur').2 q _ (regAct_mem key h1 hi)
      rw [regAct_regs] at this; cases this
    by_cases hjn : j = n
    · subst hjn
      -- a step of the mutex
      have pass : ∀ {a : Act} {c' : Call} {r : List Act} (g : Gor), y.gors[j]? = some g → g.cur = some (c', a :: r) → a.plain = false →
          { g with cur := some (c', r) } = g' → AtReg key j y x := by
        intro a c' r g hg hcur hp e
        subst e
        simp only [Option.some.injEq, Prod.mk.injEq] at hcur'
        obtain ⟨rfl, hr⟩ := hcur'
        rcases ((h.code j g hg _ _ hcur).1 hk).before y.srv g.loc h1 hi (.inl hr) with ⟨_, rfl, _⟩ | ⟨_, rfl, e⟩
        · cases hp
        · exact ⟨g, _, 1, hg, by omega, by omega, by rw [hcur, e]; rfl, hidx⟩
      have hsome : ∀ {g : Gor} {g0 : Gor}, y.gors[j]? = some g → (y.gors.set j g0)[j]? = some g' → g0 = g' := by
        intro g g0 hg e
        rw [List.getElem?_set_self (List.getElem?_eq_some_iff.1 hg).1] at e
        exact Option.some.inj e
      have hw := went y j
      generalize y.step j = z at hw hg'
      cases hw with
      | stay => exact .inl (.inr ⟨g', c, i, hg', h1, hi, hcur', hidx⟩)
      | begin g c' cs hg hcur ht =>
        have e := hsome hg hg'
        subst e
        simp only [Option.some.injEq, Prod.mk.injEq] at hcur'
        obtain ⟨rfl, hr⟩ := hcur'
        exact absurd hr (code_not_mid hk h1 hi)
      | lock g c' r hg hcur _ _ => exact .inl (.inr (pass g hg hcur rfl (hsome hg hg')))
      | unlock g c' r hg hcur _ => exact .inl (.inr (pass g hg hcur rfl (hsome hg hg')))
      | rlock g c' r hg hcur _ => exact .inl (.inr (pass g hg hcur rfl (hsome hg hg')))
      | runlock g c' r hg hcur _ => exact .inl (.inr (pass g hg hcur rfl (hsome hg hg')))
      | ret g c' o r hg hcur =>
        have e := hsome hg hg'
        subst e
        cases hcur'
      | plain g c' a r hg hcur hp =>
        have e := hsome hg hg'
        subst e
        simp only [Option.some.injEq, Prod.mk.injEq] at hcur'
        obtain ⟨rfl, hr⟩ := hcur'
        rcases ((h.code j g hg _ _ hcur).1 hk).before y.srv g.loc h1 hi (.inr ⟨hp, hr⟩) with ⟨_, rfl, e⟩ | ⟨_, rfl, _⟩
        · refine .inr ⟨rfl, ?_, g, _, hg, by rw [hcur, e]; rfl, hk⟩
          rw [← hidx]; rfl
        · cases hp
    · refine .inl (.inr ⟨g', c, i, ?_, h1, hi, hcur', hidx⟩)
      have hw := went y j
      generalize y.step j = z at hw hg'
      cases hw <;> first | exact hg' | (rwa [List.getElem?_set_ne hjn] at hg')

end Register
end Tcpx
