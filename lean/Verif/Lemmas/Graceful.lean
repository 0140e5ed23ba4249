import Verif.Spec.Graceful
/-!
# Lemmas on the goroutines of a server: what its log says about its listeners
-/
namespace Tcpx.Graceful
open Spec

theorem replaceListener_net {a : String} {l : Nat} {recs : List LRec} (h : ∀ r ∈ recs, r.network = "tcp") :
    replaceListener "tcp" a l recs = none ∧ (∀ r ∈ recs, r.port ≠ a) ∨
    ∃ recs', replaceListener "tcp" a l recs = some recs' ∧ (⟨"tcp", a, l⟩ : LRec) ∈ recs' ∧
      (∀ r ∈ recs, r.port ≠ a → r ∈ recs') ∧ (∀ r ∈ recs', r ∈ recs ∨ r = ⟨"tcp", a, l⟩) := by
  induction recs with
  | nil => exact .inl ⟨rfl, by simp⟩
  | cons r rs ih =>
    have hr := h r List.mem_cons_self
    have ih := ih (fun r hr => h r (List.mem_cons_of_mem _ hr))
    unfold replaceListener
    by_cases ha : r.port = a
    · right
      refine ⟨_, if_pos ⟨hr, ha⟩, ?_, ?_, ?_⟩
      · rw [← hr, ← ha]; exact List.mem_cons_self
      · intro q hq hne
        rcases List.mem_cons.1 hq with rfl | hq
        · exact absurd ha hne
        · exact List.mem_cons_of_mem _ hq
      · intro q hq
        rcases List.mem_cons.1 hq with rfl | hq
        · right; rw [← hr, ← ha]
        · exact .inl (List.mem_cons_of_mem _ hq)
    · rw [if_neg (fun h => ha h.2)]
      rcases ih with ⟨h1, h2⟩ | ⟨recs', h1, h2, h3, h4⟩
      · left
        refine ⟨by rw [h1]; rfl, ?_⟩
        intro q hq
        rcases List.mem_cons.1 hq with rfl | hq
        · exact ha
        · exact h2 q hq
      · right
        refine ⟨r :: recs', by rw [h1]; rfl, List.mem_cons_of_mem _ h2, ?_, ?_⟩
        · intro q hq hne
          rcases List.mem_cons.1 hq with rfl | hq
          · exact List.mem_cons_self
          · exact List.mem_cons_of_mem _ (h3 q hq hne)
        · intro q hq
          rcases List.mem_cons.1 hq with rfl | hq
          · exact .inl List.mem_cons_self
          · rcases h4 q hq with h | h
            · exact .inl (List.mem_cons_of_mem _ h)
            · exact .inr h

theorem fillProperty_net {a : String} {l : Nat} {recs : List LRec} (h : ∀ r ∈ recs, r.network = "tcp") :
    (⟨"tcp", a, l⟩ : LRec) ∈ fillProperty "tcp" a l recs ∧ (∀ r ∈ recs, r.port ≠ a → r ∈ fillProperty "tcp" a l recs) ∧
    (∀ r ∈ fillProperty "tcp" a l recs, r ∈ recs ∨ r = ⟨"tcp", a, l⟩) := by
  unfold fillProperty
  rcases replaceListener_net (a := a) (l := l) h with ⟨h1, -⟩ | ⟨recs', h1, h2, h3, h4⟩
  · rw [h1]
    refine ⟨by simp, fun r hr _ => List.mem_append_left _ hr, fun r hr => ?_⟩
    rcases List.mem_append.1 hr with hr | hr
    · exact .inl hr
    · exact .inr (List.mem_singleton.1 hr)
  · rw [h1]; exact ⟨h2, h3, h4⟩

/-- The log, the records, the open listeners and the goroutines agree. -/
structure Inv (s : GState) : Prop where
  bl : ∀ a l, s.bound a = some l → ∃ i, .listening i a l ∈ s.trace
  lt : ∀ i a l, .listening i a l ∈ s.trace → l < s.n
  uniq : ∀ i j a b l, .listening i a l ∈ s.trace → .listening j b l ∈ s.trace → i = j ∧ a = b
  rl : ∀ a l, .recorded a l ∈ s.trace → ∃ i, .listening i a l ∈ s.trace
  recs : ∀ r ∈ s.recs, r.network = "tcp" ∧ .recorded r.port r.listener ∈ s.trace
  thR : ∀ i a l, s.threads[i]? = some (Thread.record a l) → .listening i a l ∈ s.trace ∧ .recorded a l ∉ s.trace ∧ s.bound a = some l
  thO : ∀ i a l, s.threads[i]? = some (.opening a l) ∨ s.threads[i]? = some (.check a l) ∨ s.threads[i]? = some (.accept a l) ∨
    s.threads[i]? = some (.closing a l) → .listening i a l ∈ s.trace ∧ .recorded a l ∈ s.trace
  cur : ∀ a l, s.bound a = some l → .recorded a l ∈ s.trace → ∃ r ∈ s.recs, r.port = a ∧ r.listener = l

theorem inv_start (users : List User) : Inv (start users) := by
  constructor <;> simp [start] <;> intros <;> grind

/-- A goroutine that serves listener `l` at `a` after recording it. -/
def Serves (t : Thread) (a : String) (l : Nat) : Prop := t = .opening a l ∨ t = .check a l ∨ t = .accept a l ∨ t = .closing a l

theorem inv_move {s s' : GState} (h : Inv s) (hb : s'.bound = s.bound) (hn : s'.n = s.n) (hr : s'.recs = s.recs)
    (hl : ∀ i a l, .listening i a l ∈ s'.trace ↔ .listening i a l ∈ s.trace)
    (hc : ∀ a l, .recorded a l ∈ s'.trace ↔ .recorded a l ∈ s.trace)
    (ht : ∀ (i : Nat) a l, s'.threads[i]? = some (Thread.record a l) → s.threads[i]? = some (Thread.record a l))
    (ho : ∀ (i : Nat) t a l, s'.threads[i]? = some t → Serves t a l → ∃ t', s.threads[i]? = some t' ∧ Serves t' a l) : Inv s' := by
  obtain ⟨bl, lt, uniq, rl, recs, thR, thO, cur⟩ := h
  constructor
  · simpa only [hb, hl] using bl
  · simpa only [hn, hl] using lt
  · simpa only [hl] using uniq
  · simpa only [hl, hc] using rl
  · simpa only [hr, hc] using recs
  · intro i a l hi
    simpa only [hl, hc, hb] using thR i a l (ht i a l hi)
  · intro i a l hi
    simp only [hl, hc]
    have : ∃ t, s'.threads[i]? = some t ∧ Serves t a l := by
      rcases hi with h | h | h | h
      · exact ⟨_, h, .inl rfl⟩
      · exact ⟨_, h, .inr (.inl rfl)⟩
      · exact ⟨_, h, .inr (.inr (.inl rfl))⟩
      · exact ⟨_, h, .inr (.inr (.inr rfl))⟩
    obtain ⟨t, h1, h2⟩ := this
    obtain ⟨t', h3, h4⟩ := ho i t a l h1 h2
    apply thO i a l
    rcases h4 with rfl | rfl | rfl | rfl
    · exact .inl h3
    · exact .inr (.inl h3)
    · exact .inr (.inr (.inl h3))
    · exact .inr (.inr (.inr h3))
  · simpa only [hb, hc, hr] using cur

theorem inv_connect {s : GState} (h : Inv s) (a : String) : Inv (s.connect a) := by
  unfold GState.connect
  split
  all_goals exact inv_move h rfl rfl rfl (by simp [GState.log]) (by simp [GState.log]) (fun _ _ _ h => h) (fun _ t _ _ h h' => ⟨t, h, h'⟩)

/-- Only where goroutine `i` is changes, and it records no listener now. -/
theorem set_record {ts : List Thread} {i : Nat} {t : Thread} (h : ∀ a l, t ≠ .record a l) :
    ∀ (j : Nat) a l, (ts.set i t)[j]? = some (Thread.record a l) → ts[j]? = some (Thread.record a l) := by
  intro j a l hj
  rw [List.getElem?_set] at hj
  split at hj
  · split at hj
    · exact absurd (Option.some.inj hj) (h a l)
    · cases hj
  · exact hj

theorem set_serves {ts : List Thread} {i : Nat} {t t₀ : Thread} (hi : ts[i]? = some t₀) (h : ∀ a l, Serves t a l → Serves t₀ a l) :
    ∀ (j : Nat) t' a l, (ts.set i t)[j]? = some t' → Serves t' a l → ∃ t', ts[j]? = some t' ∧ Serves t' a l := by
  intro j t' a l hj hs
  rw [List.getElem?_set] at hj
  split at hj
  · split at hj
    · next he _ =>
      cases hj
      exact ⟨t₀, he ▸ hi, h a l hs⟩
    · cases hj
  · exact ⟨t', hj, hs⟩

theorem append_record {ts : List Thread} {t : Thread} (h : ∀ a l, t ≠ .record a l) :
    ∀ (j : Nat) a l, (ts ++ [t])[j]? = some (Thread.record a l) → ts[j]? = some (Thread.record a l) := by
  intro j a l hj
  rw [List.getElem?_append] at hj
  split at hj
  · exact hj
  · have := List.mem_of_getElem? hj
    exact absurd (List.mem_singleton.1 this).symm (h a l)

theorem append_serves {ts : List Thread} {t : Thread} (h : ∀ a l, ¬ Serves t a l) :
    ∀ (j : Nat) t' a l, (ts ++ [t])[j]? = some t' → Serves t' a l → ∃ t', ts[j]? = some t' ∧ Serves t' a l := by
  intro j t' a l hj hs
  rw [List.getElem?_append] at hj
  split at hj
  · exact ⟨t', hj, hs⟩
  · have := List.mem_of_getElem? hj
    exact absurd (List.mem_singleton.1 this ▸ hs) (h a l)

theorem inv_put {s : GState} (h : Inv s) {i : Nat} {t t₀ : Thread} (hi : s.threads[i]? = some t₀) (hr : ∀ a l, t ≠ .record a l)
    (hs : ∀ a l, Serves t a l → Serves t₀ a l) : Inv (s.put i t) :=
  inv_move h rfl rfl rfl (fun _ _ _ => Iff.rfl) (fun _ _ => Iff.rfl) (set_record hr) (set_serves hi hs)

theorem inv_log {s : GState} (h : Inv s) {e : Ev} (h1 : ∀ i a l, e ≠ .listening i a l) (h2 : ∀ a l, e ≠ .recorded a l) : Inv (s.log e) :=
  inv_move h rfl rfl rfl (fun i a l => by simp [GState.log, (h1 i a l).symm]) (fun a l => by simp [GState.log, (h2 a l).symm])
    (fun _ _ _ h => h) (fun _ t _ _ h h' => ⟨t, h, h'⟩)

theorem inv_spawn {s : GState} (h : Inv s) {t : Thread} (hr : ∀ a l, t ≠ .record a l) (hs : ∀ a l, ¬ Serves t a l) : Inv (s.spawn t) :=
  inv_move h rfl rfl rfl (fun i a l => by simp [GState.spawn, GState.log]) (fun a l => by simp [GState.spawn, GState.log])
    (append_record hr) (append_serves hs)

theorem inv_listenAt {s : GState} (h : Inv s) (i : Nat) (works : Bool) (a : String) (hi : s.threads[i]? = some (.listen a)) :
    Inv (s.listenAt i a works) := by
  unfold GState.listenAt
  split
  · next hw =>
    obtain ⟨bl, lt, uniq, rl, recs, thR, thO, cur⟩ := h
    obtain ⟨-, hw⟩ := hw
    simp only [GState.put, GState.log]
    constructor <;> grind
  · exact inv_log (inv_put h hi (by simp) (by simp +contextual [Serves])) (by simp) (by simp)

theorem inv_record {s : GState} (h : Inv s) (i : Nat) (works : Bool) (a : String) (l : Nat) (hi : s.threads[i]? = some (Thread.record a l)) :
    Inv (s.thread i works (.record a l)) := by
  obtain ⟨bl, lt, uniq, rl, recs, thR, thO, cur⟩ := h
  have hf := fillProperty_net (a := a) (l := l) (fun r hr => (recs r hr).1)
  simp only [GState.thread, GState.put, GState.log]
  constructor <;> grind

theorem inv_closing {s : GState} (h : Inv s) (i : Nat) (works : Bool) (a : String) (l : Nat) (hi : s.threads[i]? = some (.closing a l)) :
    Inv (s.thread i works (.closing a l)) := by
  obtain ⟨bl, lt, uniq, rl, recs, thR, thO, cur⟩ := h
  simp only [GState.thread, GState.put, GState.log]
  constructor <;> grind

/-- What is open after `Stop` has closed the listeners of the records. -/
theorem swept_bound {s : GState} (h : Inv s) (x : String) (l : Nat) :
    (if (∃ r ∈ s.recs, r.port = x ∧ s.bound x = some r.listener) then none else s.bound x) = some l ↔
      s.bound x = some l ∧ .recorded x l ∉ s.trace := by
  constructor
  · intro hx
    split at hx
    · cases hx
    · next hn =>
      refine ⟨hx, fun hr => hn ?_⟩
      obtain ⟨r, h1, h2, h3⟩ := h.cur x l hx hr
      exact ⟨r, h1, h2, h3 ▸ hx⟩
  · rintro ⟨h1, h2⟩
    rw [if_neg, h1]
    rintro ⟨r, hr, hp, hb⟩
    rw [h1] at hb
    cases hb
    exact h2 (hp ▸ (h.recs r hr).2)

theorem inv_sweep {s : GState} (h : Inv s) (i : Nat) (works : Bool) (ok : User) (hi : s.threads[i]? = some (.sweep ok)) :
    Inv (s.thread i works (.sweep ok)) := by
  have hb := swept_bound h
  simp only [GState.thread]
  refine inv_log (inv_log (inv_put (t₀ := .sweep ok) ?_ ?_ ?_ ?_) ?_ ?_) ?_ ?_
  all_goals try first | exact hi | (simp +contextual [Serves]; done)
  obtain ⟨bl, lt, uniq, rl, recs, thR, thO, cur⟩ := h
  constructor
  · intro a l h; exact bl a l ((hb a l).1 h).1
  · exact lt
  · exact uniq
  · exact rl
  · exact recs
  · intro j a l hj
    obtain ⟨h1, h2, h3⟩ := thR j a l hj
    exact ⟨h1, h2, (hb a l).2 ⟨h3, h2⟩⟩
  · exact thO
  · intro a l h hr
    exact absurd hr ((hb a l).1 h).2

theorem inv_thread {s : GState} (h : Inv s) (i : Nat) (works : Bool) (t : Thread) (hi : s.threads[i]? = some t) :
    Inv (s.thread i works t) := by
  cases t with
  | spawned k =>
    simp only [GState.thread]
    split
    · exact inv_put h hi (by simp) (by simp +contextual [Serves])
    · exact h
  | listen a => exact inv_listenAt h i works a hi
  | record a l => exact inv_record h i works a l hi
  | opening a l =>
    refine inv_log (inv_put (t₀ := .opening a l) ?_ ?_ ?_ ?_) ?_ ?_
    · exact inv_move h rfl rfl rfl (fun _ _ _ => Iff.rfl) (fun _ _ => Iff.rfl) (fun _ _ _ h => h) (fun _ t _ _ h h' => ⟨t, h, h'⟩)
    all_goals first | exact hi | simp +contextual [Serves]
  | check a l =>
    simp only [GState.thread]
    split
    all_goals exact inv_put h hi (by simp) (by simp +contextual [Serves])
  | accept a l =>
    simp only [GState.thread, GState.acceptAt]
    split
    · split
      · split
        · refine inv_log (inv_put (t₀ := .accept a l) ?_ ?_ ?_ ?_) ?_ ?_
          · exact inv_move h rfl rfl rfl (fun _ _ _ => Iff.rfl) (fun _ _ => Iff.rfl) (fun _ _ _ h => h) (fun _ t _ _ h h' => ⟨t, h, h'⟩)
          all_goals first | exact hi | simp +contextual [Serves]
        · exact h
      · exact inv_log (inv_put h hi (by simp) (by simp +contextual [Serves])) (by simp) (by simp)
    · exact inv_put h hi (by simp) (by simp +contextual [Serves])
  | closing a l => exact inv_closing h i works a l hi
  | done => exact h
  | user u =>
    simp only [GState.thread]
    cases u with
    | ret => exact h
    | serve a k => exact inv_spawn (inv_put h hi (by simp) (by simp +contextual [Serves])) (by simp) (by simp +contextual [Serves])
    | stop ok err =>
      simp only [GState.call]
      split
      · exact inv_log (inv_put h hi (by simp) (by simp +contextual [Serves])) (by simp) (by simp)
      · exact inv_put h hi (by simp) (by simp +contextual [Serves])
    | start ok err =>
      simp only [GState.call]
      split
      · exact inv_log (inv_put h hi (by simp) (by simp +contextual [Serves])) (by simp) (by simp)
      · exact inv_put h hi (by simp) (by simp +contextual [Serves])
  | stopSet ok =>
    refine inv_log (inv_put (t₀ := .stopSet ok) ?_ ?_ ?_ ?_) ?_ ?_
    · exact inv_move h rfl rfl rfl (fun _ _ _ => Iff.rfl) (fun _ _ => Iff.rfl) (fun _ _ _ h => h) (fun _ t _ _ h h' => ⟨t, h, h'⟩)
    all_goals first | exact hi | simp +contextual [Serves]
  | sweep ok => exact inv_sweep h i works ok hi
  | startEval ok =>
    refine inv_put (t₀ := .startEval ok) ?_ ?_ ?_ ?_
    · exact inv_move h rfl rfl rfl (fun _ _ _ => Iff.rfl) (fun _ _ => Iff.rfl) (fun _ _ _ h => h) (fun _ t _ _ h h' => ⟨t, h, h'⟩)
    all_goals first | exact hi | simp +contextual [Serves]
  | startLoop k rest ok =>
    cases rest with
    | nil => exact inv_log (inv_put h hi (by simp) (by simp +contextual [Serves])) (by simp) (by simp)
    | cons a rest =>
      refine inv_spawn (inv_put (t₀ := .startLoop k (a :: rest) ok) ?_ ?_ ?_ ?_) ?_ ?_
      · exact inv_move h rfl rfl rfl (fun _ _ _ => Iff.rfl) (fun _ _ => Iff.rfl) (fun _ _ _ h => h) (fun _ t _ _ h h' => ⟨t, h, h'⟩)
      all_goals first | exact hi | simp +contextual [Serves]

theorem inv_step {s : GState} (h : Inv s) (l : Label) : Inv (s.step l) := by
  cases l with
  | run i works =>
    simp only [GState.step]
    split
    · next t hi => exact inv_thread h i works t hi
    · exact h
  | connect a => exact inv_connect h a

theorem run_append (users : List User) (ls ls' : List Label) : run users (ls ++ ls') = ls'.foldl GState.step (run users ls) := by
  simp [run]

theorem inv_run (users : List User) (ls : List Label) : Inv (run users ls) := by
  suffices H : ∀ s, Inv s → Inv (ls.foldl GState.step s) from H _ (inv_start users)
  induction ls with
  | nil => exact fun s h => h
  | cons l ls ih => exact fun s h => ih _ (inv_step h l)

end Tcpx.Graceful
