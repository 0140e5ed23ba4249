import Verif.Spec.Race
/-!
# Races: lock discipline, and fields of one goroutine
-/
namespace Tcpx
open Spec

/-! ## Fields behind the mutex -/

/-- With the mutex as said by `m` (`none`, for reading, for writing), the code takes and gives it in turn, and accesses the fields `X`
under it only. -/
def Locked (X : Loc → Prop) : Option Bool → RProg → Prop
  | _, .done => True
  | m, .lock k => m = none ∧ Locked X (some true) k
  | m, .unlock k => m = some true ∧ Locked X none k
  | m, .rlock k => m = none ∧ Locked X (some false) k
  | m, .runlock k => m = some false ∧ Locked X none k
  | m, .read x k => (X x → m ≠ none) ∧ ∀ v, Locked X m (k v)
  | m, .write x _ k => (X x → m = some true) ∧ Locked X m k
  | m, .choose k => ∀ n, Locked X m (k n)
  | m, .go q k => Locked X none q ∧ Locked X m k

structure RInv (X : Loc → Prop) (y : RSys) (m : Nat → Option Bool) : Prop where
  prog : ∀ i p, y.threads[i]? = some p → Locked X (m i) p
  writer : ∀ i, y.writer = some i ↔ m i = some true
  reader : ∀ i, i ∈ y.readers ↔ m i = some false
  nodup : y.readers.Nodup
  excl : ∀ i, y.writer = some i → y.readers = []
  fresh : ∀ i, y.threads.length ≤ i → m i = none

theorem RInv.safe {X : Loc → Prop} {y : RSys} {m : Nat → Option Bool} (h : RInv X y m) (x : Loc) (hx : X x) : ¬ RaceAt y x := by
  rintro ⟨i, j, p, q, w, v, hij, hi, hj, hp, hq, hw⟩
  have key : ∀ i p w, y.threads[i]? = some p → About x w p → m i = some true ∨ (w = false ∧ m i = some false) := by
    intro i p w hi hp
    have := h.prog i p hi
    cases p with
    | read y k =>
      obtain ⟨rfl, rfl⟩ := hp
      have := this.1 hx
      cases hm : m i with
      | none => exact absurd hm this
      | some b => cases b <;> simp
    | write y u k =>
      obtain ⟨rfl, rfl⟩ := hp
      exact .inl (this.1 hx)
    | _ => cases hp
  have excl : ∀ i j, i ≠ j → m i = some true → ¬ (m j = some true ∨ m j = some false) := by
    intro i j hij hi hj
    have h1 := (h.writer i).2 hi
    rcases hj with hj | hj
    · have h2 := (h.writer j).2 hj
      rw [h1] at h2; cases h2; exact hij rfl
    · have h2 := (h.reader j).2 hj
      rw [h.excl i h1] at h2; cases h2
  have k1 := key i p w hi hp
  have k2 := key j q v hj hq
  rcases k1 with k1 | ⟨rfl, k1⟩
  · exact excl i j hij k1 (k2.imp id (·.2))
  · rcases k2 with k2 | ⟨rfl, k2⟩
    · exact excl j i (Ne.symm hij) k2 (.inr k1)
    · rcases hw with e | e <;> cases e

theorem RInv.step {X : Loc → Prop} {y : RSys} {m : Nat → Option Bool} (h : RInv X y m) (i n : Nat) : ∃ m', RInv X (y.step i n) m' := by
  unfold RSys.step
  cases hi : y.threads[i]? with
  | none => exact ⟨m, h⟩
  | some p =>
    have hp := h.prog i p hi
    have hlen : i < y.threads.length := by
      rcases Nat.lt_or_ge i y.threads.length with g | g
      · exact g
      · rw [List.getElem?_eq_none g] at hi; cases hi
    -- the mutex stays as it is
    have same : ∀ (k : RProg) (mem : Loc → Nat), Locked X (m i) k → RInv X { y with mem := mem, threads := y.threads.set i k } m := by
      intro k mem hk
      refine ⟨?_, h.writer, h.reader, h.nodup, h.excl, ?_⟩
      · intro j q hq
        simp only [List.getElem?_set] at hq
        split at hq
        · rename_i e; subst e
          cases hq; exact hk
        · exact h.prog j q hq
      · intro j hj
        exact h.fresh j (by simpa using hj)
    -- goroutine `i` gets it or gives it back
    have move : ∀ (k : RProg) (b : Option Bool) (w : Option Nat) (r : List Nat), Locked X b k →
        (w = some i ↔ b = some true) → (i ∈ r ↔ b = some false) → (∀ j, j ≠ i → (w = some j ↔ y.writer = some j)) →
        (∀ j, j ≠ i → (j ∈ r ↔ j ∈ y.readers)) → r.Nodup → (∀ j, w = some j → r = []) →
        RInv X { y with writer := w, readers := r, threads := y.threads.set i k } (fun j => if j = i then b else m j) := by
      intro k b w r hk h1 h2 h3 h4 h5 h6
      refine ⟨?_, ?_, ?_, h5, h6, ?_⟩
      · intro j q hq
        simp only [List.getElem?_set] at hq
        split at hq
        · rename_i e; subst e
          cases hq; simpa using hk
        · rename_i e
          simp only [if_neg (Ne.symm e)]
          exact h.prog j q hq
      · intro j
        by_cases hj : j = i
        · subst hj; simpa using h1
        · simp only [if_neg hj]; exact (h3 j hj).trans (h.writer j)
      · intro j
        by_cases hj : j = i
        · subst hj; simpa using h2
        · simp only [if_neg hj]; exact (h4 j hj).trans (h.reader j)
      · intro j hj
        have hj' : y.threads.length ≤ j := by simpa using hj
        have : j ≠ i := by omega
        simp only [if_neg this]
        exact h.fresh j hj'
    cases p with
    | done => exact ⟨m, h⟩
    | read x k => exact ⟨m, same _ _ (hp.2 _)⟩
    | write x v k => exact ⟨m, same _ _ hp.2⟩
    | choose k => exact ⟨m, same _ y.mem (hp n)⟩
    | lock k =>
      simp only
      split
      · rename_i hc
        exact ⟨_, move k (some true) (some i) y.readers hp.2 (by simp) (by simp [hc.2]) (by simp [hc.1, Ne.symm]; intro j hj e; exact hj e.symm) (fun _ _ => .rfl)
          h.nodup (fun _ _ => hc.2)⟩
      · exact ⟨m, h⟩
    | unlock k =>
      have hw : y.writer = some i := (h.writer i).2 hp.1
      simp only [hw, if_true]
      refine ⟨_, move k none none y.readers hp.2 (by simp) (by simp [h.excl i hw]) ?_ (fun _ _ => .rfl) h.nodup (by simp)⟩
      intro j hj
      simp [hw, Ne.symm hj]
    | rlock k =>
      simp only
      split
      · rename_i hc
        have hn : i ∉ y.readers := by rw [h.reader, hp.1]; simp
        exact ⟨_, move k (some false) y.writer (i :: y.readers) hp.2 (by simp [hc]) (by simp) (fun _ _ => .rfl) (by intro j hj; simp [hj])
          (List.nodup_cons.2 ⟨hn, h.nodup⟩) (by simp [hc])⟩
      · exact ⟨m, h⟩
    | runlock k =>
      have hr : i ∈ y.readers := (h.reader i).2 hp.1
      simp only [hr, if_true]
      have hw : y.writer = none := by
        cases e : y.writer with
        | none => rfl
        | some j => rw [h.excl j e] at hr; cases hr
      exact ⟨_, move k none y.writer (y.readers.erase i) hp.2 (by simp [hw]) (by simp [h.nodup.mem_erase_iff]) (fun _ _ => .rfl)
          (by intro j hj; exact List.mem_erase_of_ne hj) (h.nodup.erase _) (by simp [hw])⟩
    | go q k =>
      have h1 := same k y.mem hp.2
      refine ⟨m, ?_, h1.writer, h1.reader, h1.nodup, h1.excl, ?_⟩
      · intro j p' hp'
        rcases Nat.lt_or_ge j (y.threads.set i k).length with g | g
        · simp only [List.getElem?_append_left g] at hp'
          exact h1.prog j p' hp'
        · simp only [List.getElem?_append_right g] at hp'
          have hm : m j = none := h.fresh j (by simpa using g)
          have : p' = q := by
            cases hk : j - (y.threads.set i k).length with
            | zero => rw [hk] at hp'; simpa using hp'.symm
            | succ d => rw [hk] at hp'; simp at hp'
          subst this
          rw [hm]; exact hp.1
      · intro j hj
        exact h.fresh j (by simp at hj; omega)

theorem RInv.run {X : Loc → Prop} {y : RSys} {m : Nat → Option Bool} (h : RInv X y m) (sched : List (Nat × Nat)) :
    ∃ m', RInv X (y.run sched) m' := by
  induction sched generalizing y m with
  | nil => exact ⟨m, h⟩
  | cons s l ih =>
    obtain ⟨m', h'⟩ := h.step s.1 s.2
    exact ih h'

/-! ## Fields that need no mutex -/

/-- The code may access `x`, writing if `w`, itself or by goroutines it starts. -/
def May (x : Loc) (w : Bool) : RProg → Prop
  | .done => False
  | .lock k => May x w k
  | .unlock k => May x w k
  | .rlock k => May x w k
  | .runlock k => May x w k
  | .read y k => (y = x ∧ w = false) ∨ ∃ v, May x w (k v)
  | .write y _ k => (y = x ∧ w = true) ∨ May x w k
  | .choose k => ∃ n, May x w (k n)
  | .go q k => May x w q ∨ May x w k

/-- Two pieces of code that can run side by side. -/
def Clear (p q : RProg) : Prop := ∀ x w v, May x w p → May x v q → w = false ∧ v = false

/-- Every goroutine started can run beside what its starter does next. -/
def Sep : RProg → Prop
  | .done => True
  | .lock k => Sep k
  | .unlock k => Sep k
  | .rlock k => Sep k
  | .runlock k => Sep k
  | .read _ k => ∀ v, Sep (k v)
  | .write _ _ k => Sep k
  | .choose k => ∀ n, Sep (k n)
  | .go q k => Clear q k ∧ Sep q ∧ Sep k

theorem about_may {x : Loc} {w : Bool} {p : RProg} (h : About x w p) : May x w p := by
  cases p with
  | read => exact .inl h
  | write => exact .inl h
  | _ => cases h

theorem Clear.symm {p q : RProg} (h : Clear p q) : Clear q p := fun x w v h1 h2 => (h x v w h2 h1).symm

/-- What is left of a goroutine after a step, and whom it has started. -/
structure Shrinks (p k : RProg) : Prop where
  may : ∀ x w, May x w k → May x w p
  sep : Sep p → Sep k

structure SInv (y : RSys) : Prop where
  sep : ∀ (i : Nat) p, y.threads[i]? = some p → Sep p
  clear : ∀ (i j : Nat) p q, i ≠ j → y.threads[i]? = some p → y.threads[j]? = some q → Clear p q

theorem SInv.safe {y : RSys} (h : SInv y) (x : Loc) : ¬ RaceAt y x := by
  rintro ⟨i, j, p, q, w, v, hij, hi, hj, hp, hq, hw⟩
  obtain ⟨rfl, rfl⟩ := h.clear i j p q hij hi hj x w v (about_may hp) (about_may hq)
  rcases hw with e | e <;> cases e

theorem SInv.set {y : RSys} (h : SInv y) (i : Nat) (p k : RProg) (hi : y.threads[i]? = some p) (hk : Shrinks p k) (mem : Loc → Nat)
    (w : Option Nat) (r : List Nat) : SInv { mem := mem, writer := w, readers := r, threads := y.threads.set i k } := by
  have at_ : ∀ j q, (y.threads.set i k)[j]? = some q → (j = i ∧ q = k) ∨ (j ≠ i ∧ y.threads[j]? = some q) := by
    intro j q hq
    rw [List.getElem?_set] at hq
    split at hq
    · rename_i e; subst e
      split at hq
      · cases hq; exact .inl ⟨rfl, rfl⟩
      · cases hq
    · rename_i e; exact .inr ⟨Ne.symm e, hq⟩
  have hc : ∀ j q, j ≠ i → y.threads[j]? = some q → Clear k q := fun j q hj hq x w v h1 h2 =>
    h.clear i j p q (Ne.symm hj) hi hq x w v (hk.may x w h1) h2
  refine ⟨?_, ?_⟩
  · intro j q hq
    rcases at_ j q hq with ⟨rfl, rfl⟩ | ⟨_, hq⟩
    · exact hk.sep (h.sep _ p hi)
    · exact h.sep j q hq
  · intro a b p' q' hab ha hb
    rcases at_ a p' ha with ⟨rfl, rfl⟩ | ⟨ha1, ha'⟩
    · rcases at_ b q' hb with ⟨rfl, rfl⟩ | ⟨hb1, hb⟩
      · exact absurd rfl hab
      · exact hc b q' hb1 hb
    · rcases at_ b q' hb with ⟨hb1, hb2⟩ | ⟨hb1, hb⟩
      · rw [hb2]; exact (hc a p' ha1 ha').symm
      · exact h.clear a b p' q' hab ha' hb

theorem SInv.step {y : RSys} (h : SInv y) (i n : Nat) : SInv (y.step i n) := by
  unfold RSys.step
  cases hi : y.threads[i]? with
  | none => exact h
  | some p =>
    have done : Shrinks p .done := ⟨fun _ _ h => h.elim, fun _ => trivial⟩
    cases p with
    | done => exact h
    | read x k => exact h.set i _ _ hi ⟨fun _ _ hm => .inr ⟨_, hm⟩, fun hs => hs _⟩ _ _ _
    | write x v k => exact h.set i _ _ hi ⟨fun _ _ hm => .inr hm, id⟩ _ _ _
    | choose k => exact h.set i _ _ hi ⟨fun _ _ hm => ⟨_, hm⟩, fun hs => hs _⟩ _ _ _
    | lock k =>
      simp only
      split
      · exact h.set i _ k hi ⟨fun _ _ => id, id⟩ _ _ _
      · exact h
    | rlock k =>
      simp only
      split
      · exact h.set i _ k hi ⟨fun _ _ => id, id⟩ _ _ _
      · exact h
    | unlock k =>
      simp only
      split
      · exact h.set i _ k hi ⟨fun _ _ => id, id⟩ _ _ _
      · exact h.set i _ _ hi done _ _ _
    | runlock k =>
      simp only
      split
      · exact h.set i _ k hi ⟨fun _ _ => id, id⟩ _ _ _
      · exact h.set i _ _ hi done _ _ _
    | go q k =>
      have h1 := h.set i (.go q k) k hi ⟨fun _ _ hm => .inr hm, fun hs => hs.2.2⟩ y.mem y.writer y.readers
      have hs := h.sep i _ hi
      have at_ : ∀ (j : Nat) p, (y.threads.set i k ++ [q])[j]? = some p → (y.threads.set i k)[j]? = some p ∨ (p = q ∧ j = (y.threads.set i k).length) := by
        intro j p hp
        rcases Nat.lt_or_ge j (y.threads.set i k).length with g | g
        · rw [List.getElem?_append_left g] at hp; exact .inl hp
        · rw [List.getElem?_append_right g] at hp
          cases hk : j - (y.threads.set i k).length with
          | zero => rw [hk] at hp; exact .inr ⟨by simpa using hp.symm, by omega⟩
          | succ d => rw [hk] at hp; simp at hp
      have hc : ∀ (j : Nat) p, (y.threads.set i k)[j]? = some p → Clear q p := by
        intro j p hp
        by_cases hj : j = i
        · subst hj
          rw [List.getElem?_set_self (by
            rcases Nat.lt_or_ge j y.threads.length with g | g
            · exact g
            · rw [List.getElem?_eq_none g] at hi; cases hi)] at hp
          cases hp; exact hs.1
        · rw [List.getElem?_set_ne (Ne.symm hj)] at hp
          exact fun x w v h2 h3 => h.clear i j _ p (Ne.symm hj) hi hp x w v (.inl h2) h3
      refine ⟨?_, ?_⟩
      · intro j p hp
        rcases at_ j p hp with hp | ⟨rfl, _⟩
        · exact h1.sep j p hp
        · exact hs.2.1
      · intro a b p' q' hab ha hb
        rcases at_ a p' ha with ha1 | ⟨ha1, ha2⟩
        · rcases at_ b q' hb with hb1 | ⟨hb1, hb2⟩
          · exact h1.clear a b p' q' hab ha1 hb1
          · rw [hb1]; exact (hc a p' ha1).symm
        · rcases at_ b q' hb with hb1 | ⟨hb1, hb2⟩
          · rw [ha1]; exact hc b q' hb1
          · exact absurd (ha2.trans hb2.symm) hab

theorem SInv.run {y : RSys} (h : SInv y) (sched : List (Nat × Nat)) : SInv (y.run sched) := by
  induction sched generalizing y with
  | nil => exact h
  | cons s l ih => exact ih (h.step s.1 s.2)

theorem SInv.one {p : RProg} (h : Sep p) : SInv (Race.one p) := by
  refine ⟨?_, ?_⟩
  · intro i q hq
    cases i with
    | zero => cases hq; exact h
    | succ i => cases hq
  · intro i j p q hij hi hj
    cases i with
    | zero =>
      cases j with
      | zero => exact absurd rfl hij
      | succ j => cases hj
    | succ i => cases hi

/-- Nobody may write `x`. -/
def Unwritten (y : RSys) (x : Loc) : Prop := ∀ (i : Nat) p, y.threads[i]? = some p → ¬ May x true p

theorem Unwritten.safe {y : RSys} {x : Loc} (h : Unwritten y x) : ¬ RaceAt y x := by
  rintro ⟨i, j, p, q, w, v, hij, hi, hj, hp, hq, hw⟩
  rcases hw with rfl | rfl
  · exact h i p hi (about_may hp)
  · exact h j q hj (about_may hq)

theorem Unwritten.step {y : RSys} {x : Loc} (h : Unwritten y x) (i n : Nat) : Unwritten (y.step i n) x := by
  unfold RSys.step
  cases hi : y.threads[i]? with
  | none => exact h
  | some p =>
    have hp := h i p hi
    have at_ : ∀ k, ¬ May x true k → ∀ (j : Nat) q, (y.threads.set i k)[j]? = some q → ¬ May x true q := by
      intro k hk j q hq
      rw [List.getElem?_set] at hq
      split at hq
      · split at hq
        · cases hq; exact hk
        · cases hq
      · exact h j q hq
    cases p with
    | done => exact h
    | read z k => exact at_ _ fun g => hp (.inr ⟨_, g⟩)
    | write z v k => exact at_ _ fun g => hp (.inr g)
    | choose k => exact at_ _ fun g => hp ⟨_, g⟩
    | lock k =>
      simp only
      split
      · exact at_ _ hp
      · exact h
    | rlock k =>
      simp only
      split
      · exact at_ _ hp
      · exact h
    | unlock k =>
      simp only
      split
      · exact at_ _ hp
      · exact at_ _ id
    | runlock k =>
      simp only
      split
      · exact at_ _ hp
      · exact at_ _ id
    | go q k =>
      intro j p hj
      rcases Nat.lt_or_ge j (y.threads.set i k).length with g | g
      · simp only [List.getElem?_append_left g] at hj
        exact at_ k (fun g => hp (.inr g)) j p hj
      · simp only [List.getElem?_append_right g] at hj
        cases hd : j - (y.threads.set i k).length with
        | zero =>
          rw [hd] at hj
          have : q = p := by simpa using hj
          subst this
          exact fun g => hp (.inl g)
        | succ d => rw [hd] at hj; simp at hj

theorem Unwritten.run {y : RSys} {x : Loc} (h : Unwritten y x) (sched : List (Nat × Nat)) : Unwritten (y.run sched) x := by
  induction sched generalizing y with
  | nil => exact h
  | cons s l ih => exact ih (h.step s.1 s.2)

/-! ## The code of the server -/

namespace Race
variable {X : Loc → Prop}

theorem state_locked {k : Nat → RProg} (hk : ∀ v, Locked X none (k v)) : Locked X none (state k) :=
  ⟨rfl, fun _ h => (by cases h), fun v => ⟨rfl, hk v⟩⟩

theorem setState_locked {v : Nat} {k : RProg} (hk : Locked X none k) : Locked X none (setState v k) := ⟨rfl, fun _ => rfl, rfl, hk⟩

theorem fillProperty_locked {k : RProg} (hk : Locked X none k) : Locked X none (fillProperty k) := by
  refine ⟨rfl, fun _ h => (by cases h), fun m b => ?_⟩
  dsimp only
  split
  · exact ⟨fun _ => rfl, rfl, hk⟩
  · exact ⟨fun _ => rfl, fun _ => rfl, rfl, hk⟩

theorem beatState_locked (n : Nat) : Locked X none (beatState n) := by
  induction n with
  | zero => trivial
  | succ n ih =>
    refine state_locked fun v => ?_
    split
    · trivial
    · exact ih

theorem accept_locked (c : RCfg) {k : RProg} (hX : ¬ X .pool) (hk : Locked X none k) (n : Nat) : Locked X none (accept c k n) := by
  induction n with
  | zero => exact hk
  | succ n ih =>
    refine state_locked fun v => ?_
    split
    · exact hk
    · have hn : Locked X none (if c.heartbeat then .go (.choose beatState) (accept c k n) else accept c k n) := by
        split
        · exact ⟨beatState_locked, ih⟩
        · exact ih
      intro e
      dsimp only
      split
      · exact hk
      · split
        · exact ⟨fun h => absurd h hX, fun _ => hn⟩
        · exact hn

theorem listen_locked (c : RCfg) {k : RProg} (hX : ¬ X .pool) (hk : Locked X none k) : Locked X none (listen c k) := by
  intro e
  dsimp only
  split
  · exact hk
  · exact fillProperty_locked <| setState_locked fun n => accept_locked c hX hk n

theorem readLoop_locked (c : RCfg) (hX : ¬ X .pool) (n : Nat) : Locked X none (readLoop c n) := by
  induction n with
  | zero => trivial
  | succ n ih =>
    refine state_locked fun v => ?_
    split
    · trivial
    · have hn : Locked X none (if c.heartbeat then .go (.choose beatState) (readLoop c n) else readLoop c n) := by
        split
        · exact ⟨beatState_locked, ih⟩
        · exact ih
      intro e
      dsimp only
      split
      · exact ih
      · split
        · exact ⟨fun h => absurd h hX, fun _ => hn⟩
        · exact hn

theorem listenUDP_locked (c : RCfg) (hX : ¬ X .pool) : Locked X none (listenUDP c) := by
  intro e
  dsimp only
  split
  · trivial
  · exact fillProperty_locked <| setState_locked ⟨fun n => readLoop_locked c hX n, trivial⟩

theorem closeAll_locked (c : RCfg) {k : RProg} (hX : ¬ X .pool) (hk : Locked X none k) : Locked X none (closeAll c k) := by
  unfold closeAll
  split
  · exact hk
  · refine ⟨fun h => absurd h hX, fun p => ?_⟩
    dsimp only
    split
    · exact hk
    · exact ⟨fun h => absurd h hX, fun _ => ⟨trivial, fun h => absurd h hX, hk⟩⟩

theorem stop_locked (c : RCfg) (all : Bool) {k : RProg} (hX : ¬ X .pool) (hk : Locked X none k) : Locked X none (stop c all k) := by
  refine state_locked fun v => ?_
  split
  · exact hk
  · refine setState_locked ⟨rfl, fun _ h => (by cases h), fun _ => ⟨fun _ h => (by cases h), fun _ => ⟨rfl, ?_⟩⟩⟩
    split
    · exact closeAll_locked c hX hk
    · exact hk

theorem start_locked (c : RCfg) {k : RProg} (hX : ¬ X .pool) (hX' : ¬ X .properties) (hk : Locked X none k) : Locked X none (start c k) := by
  refine state_locked fun v => ?_
  split
  · exact hk
  · refine ⟨fun h => absurd h hX', fun m => ?_⟩
    dsimp only
    induction m with
    | zero => exact hk
    | succ m ih =>
      refine ⟨fun u => ?_, ih⟩
      dsimp only
      split
      · exact listen_locked c hX trivial
      · exact listenUDP_locked c hX

theorem user_locked (c : RCfg) (hX : ¬ X .pool) (l : List Ctl) (hl : X .properties → ∀ a ∈ l, a ≠ .start ∧ ∀ b, a ≠ .restart b) :
    Locked X none (user c l) := by
  induction l with
  | nil => trivial
  | cons a l ih =>
    have ih := ih fun h a ha => hl h a (List.mem_cons_of_mem _ ha)
    cases a with
    | state => exact state_locked fun _ => ih
    | listen => exact listen_locked c hX ih
    | listenUDP => exact listenUDP_locked c hX
    | stop all => exact stop_locked c all hX ih
    | start => exact start_locked c hX (fun h => (hl h .start List.mem_cons_self).1 rfl) ih
    | restart all =>
      refine stop_locked c all hX fun e => ?_
      dsimp only
      split
      · exact ih
      · exact start_locked c hX (fun h => (hl h (.restart all) List.mem_cons_self).2 _ rfl) ih

theorem server_inv (c : RCfg) (users : List (List Ctl)) (h : ∀ l ∈ users, Locked X none (user c l)) :
    RInv X (server c users) fun _ => none := by
  refine ⟨?_, by simp [server], by simp [server], by simp [server], by simp [server], fun _ _ => rfl⟩
  intro i p hp
  simp only [server, List.getElem?_map, Option.map_eq_some_iff] at hp
  obtain ⟨l, hl, rfl⟩ := hp
  exact h l (List.mem_of_getElem? hl)

/-! ### Who writes the pool -/

theorem state_may {x : Loc} {w : Bool} {k : Nat → RProg} (h : May x w (state k)) : (x = .state ∧ w = false) ∨ ∃ v, May x w (k v) := by
  rcases h with ⟨h1, h2⟩ | h
  · exact .inl ⟨h1.symm, h2⟩
  · exact .inr h

theorem setState_may {x : Loc} {w : Bool} {v : Nat} {k : RProg} (h : May x w (setState v k)) : x = .state ∨ May x w k := by
  rcases h with ⟨h1, h2⟩ | h
  · exact .inl h1.symm
  · exact .inr h

theorem fillProperty_may {x : Loc} {w : Bool} {k : RProg} (h : May x w (fillProperty k)) :
    x = .properties ∨ x = .listener ∨ May x w k := by
  rcases h with ⟨h1, h2⟩ | ⟨m, b, h⟩
  · exact .inl h1.symm
  · dsimp only at h
    split at h
    · rcases h with ⟨h, _⟩ | h
      · exact .inr (.inl h.symm)
      · exact .inr (.inr h)
    · rcases h with ⟨h, _⟩ | ⟨h, _⟩ | h
      · exact .inr (.inl h.symm)
      · exact .inl h.symm
      · exact .inr (.inr h)

theorem beatState_pool (w : Bool) (n : Nat) : ¬ May .pool w (beatState n) := by
  induction n with
  | zero => exact id
  | succ n ih =>
    intro h
    rcases state_may h with ⟨h, _⟩ | ⟨v, h⟩
    · cases h
    · split at h
      · exact h
      · exact ih h

theorem accept_pool (c : RCfg) {k : RProg} (hk : ¬ May .pool true k) (n : Nat) : ¬ May .pool true (accept c k n) := by
  induction n with
  | zero => exact hk
  | succ n ih =>
    intro h
    rcases state_may h with ⟨h, _⟩ | ⟨v, h⟩
    · cases h
    · have hn : ¬ May .pool true (if c.heartbeat then .go (.choose beatState) (accept c k n) else accept c k n) := by
        split
        · rintro (⟨_, h⟩ | h)
          · exact beatState_pool _ _ h
          · exact ih h
        · exact ih
      split at h
      · exact hk h
      · obtain ⟨e, h⟩ := h
        dsimp only at h
        split at h
        · exact hk h
        · split at h
          · rcases h with ⟨_, h⟩ | ⟨_, h⟩
            · cases h
            · exact hn h
          · exact hn h

theorem listen_pool (c : RCfg) {k : RProg} (hk : ¬ May .pool true k) : ¬ May .pool true (listen c k) := by
  rintro ⟨e, h⟩
  dsimp only at h
  split at h
  · exact hk h
  · rcases fillProperty_may h with h | h | h
    · cases h
    · cases h
    · rcases setState_may h with h | ⟨n, h⟩
      · cases h
      · exact accept_pool c hk n h

theorem readLoop_pool (c : RCfg) (n : Nat) : ¬ May .pool true (readLoop c n) := by
  induction n with
  | zero => exact id
  | succ n ih =>
    intro h
    rcases state_may h with ⟨h, _⟩ | ⟨v, h⟩
    · cases h
    · have hn : ¬ May .pool true (if c.heartbeat then .go (.choose beatState) (readLoop c n) else readLoop c n) := by
        split
        · rintro (⟨_, h⟩ | h)
          · exact beatState_pool _ _ h
          · exact ih h
        · exact ih
      split at h
      · exact h
      · obtain ⟨e, h⟩ := h
        dsimp only at h
        split at h
        · exact ih h
        · split at h
          · rcases h with ⟨_, h⟩ | ⟨_, h⟩
            · cases h
            · exact hn h
          · exact hn h

theorem listenUDP_pool (c : RCfg) : ¬ May .pool true (listenUDP c) := by
  rintro ⟨e, h⟩
  dsimp only at h
  split at h
  · exact h
  · rcases fillProperty_may h with h | h | h
    · cases h
    · cases h
    · rcases setState_may h with h | ⟨n, h⟩ | h
      · cases h
      · exact readLoop_pool c n h
      · exact h

theorem stop_pool (c : RCfg) (all : Bool) {k : RProg} (hs : c.signals = true ∨ all = false) (hk : ¬ May .pool true k) :
    ¬ May .pool true (stop c all k) := by
  intro h
  rcases state_may h with ⟨h, _⟩ | ⟨v, h⟩
  · cases h
  · split at h
    · exact hk h
    · rcases setState_may h with h | h
      · cases h
      · rcases h with ⟨h, _⟩ | ⟨_, ⟨h, _⟩ | ⟨_, h⟩⟩
        · cases h
        · cases h
        · split at h
          · rename_i ha
            rcases hs with hs | hs
            · have h : May .pool true (closeAll c k) := h
              rw [closeAll, if_pos hs] at h
              exact hk h
            · rw [hs] at ha; cases ha
          · exact hk h

theorem start_pool (c : RCfg) {k : RProg} (hk : ¬ May .pool true k) : ¬ May .pool true (start c k) := by
  intro h
  rcases state_may h with ⟨h, _⟩ | ⟨v, h⟩
  · cases h
  · split at h
    · exact hk h
    · rcases h with ⟨h, _⟩ | ⟨m, h⟩
      · cases h
      · induction m with
        | zero => exact hk h
        | succ m ih =>
          rcases h with ⟨u, h⟩ | h
          · dsimp only at h
            split at h
            · exact listen_pool c id h
            · exact listenUDP_pool c h
          · exact ih h

theorem user_pool (c : RCfg) (l : List Ctl) (hl : c.signals = true ∨ ∀ a ∈ l, a ≠ .stop true ∧ a ≠ .restart true) :
    ¬ May .pool true (user c l) := by
  induction l with
  | nil => exact id
  | cons a l ih =>
    have ih := ih (hl.imp id fun h a ha => h a (List.mem_cons_of_mem _ ha))
    have ha : ∀ all, (a = .stop all ∨ a = .restart all) → c.signals = true ∨ all = false := by
      intro all h
      rcases hl with hl | hl
      · exact .inl hl
      · have := hl a List.mem_cons_self
        cases all with
        | false => exact .inr rfl
        | true =>
          rcases h with h | h
          · exact absurd h this.1
          · exact absurd h this.2
    cases a with
    | state =>
      intro h
      rcases state_may h with ⟨h, _⟩ | ⟨v, h⟩
      · cases h
      · exact ih h
    | listen => exact listen_pool c ih
    | listenUDP => exact listenUDP_pool c
    | stop all => exact stop_pool c all (ha all (.inl rfl)) ih
    | start => exact start_pool c ih
    | restart all =>
      refine stop_pool c all (ha all (.inr rfl)) ?_
      rintro ⟨e, h⟩
      dsimp only at h
      split at h
      · exact ih h
      · exact start_pool c ih h

/-! ## The code of a connection -/

theorem close_may {c : RCfg} {udp : Bool} {k : RProg} {x : Loc} {w : Bool} (h : May x w (close c udp k)) :
    (x = .poolRef ∧ w = false) ∨ (c.builtIn = true ∧ udp = true ∧ x = .reqStore ∧ w = false) ∨ May x w k := by
  rcases h with ⟨h1, h2⟩ | ⟨v, h⟩
  · exact .inl ⟨h1.symm, h2⟩
  · dsimp only at h
    split at h
    · rename_i hc
      rw [Bool.and_eq_true] at hc
      rcases h with ⟨h1, h2⟩ | ⟨v, h⟩
      · exact .inr (.inl ⟨hc.1, hc.2, h1.symm, h2⟩)
      · exact .inr (.inr h)
    · exact .inr (.inr h)

theorem close_sep {c : RCfg} {udp : Bool} {k : RProg} (h : Sep k) : Sep (close c udp k) := by
  intro v
  dsimp only
  split
  · exact fun _ => h
  · exact h

/-- A field of the context of the connection itself. -/
def Own (x : Loc) : Prop := x = .chain ∨ x = .stream ∨ x = .poolRef ∨ x = .reqStore ∨ x = .ends

theorem copy_may {k : RProg} {x : Loc} {w : Bool} (h : May x w (copy k)) : (w = false ∧ Own x) ∨ May x w k := by
  rcases h with ⟨h1, h2⟩ | ⟨_, ⟨h1, h2⟩ | ⟨_, ⟨h1, h2⟩ | ⟨_, ⟨h1, h2⟩ | ⟨_, ⟨h1, h2⟩ | ⟨_, h⟩⟩⟩⟩⟩ <;>
    first | exact .inr h | (subst h1; exact .inl ⟨h2, by simp [Own]⟩)

theorem copy_sep {k : RProg} (h : Sep k) : Sep (copy k) := fun _ _ _ _ _ => h

theorem callback_may {k : RProg} {x : Loc} {w : Bool} (h : May x w (callback k)) : (w = false ∧ Own x) ∨ x = .chain ∨ May x w k := by
  rcases copy_may h with h | ⟨h, _⟩ | h
  · exact .inl h
  · exact .inr (.inl h.symm)
  · exact .inr (.inr h)

theorem callback_sep {k : RProg} (h : Sep k) : Sep (callback k) := copy_sep h

theorem waitClose_may {c : RCfg} {udp : Bool} {x : Loc} {w : Bool} (h : May x w (waitClose c udp)) :
    w = false ∧ (x = .poolRef ∨ (c.builtIn = true ∧ udp = true ∧ x = .reqStore)) := by
  obtain ⟨n, h⟩ := h
  dsimp only at h
  split at h
  · exact h.elim
  · rcases close_may h with ⟨h1, h2⟩ | ⟨h1, h2, h3, h4⟩ | h
    · exact ⟨h2, .inl h1⟩
    · exact ⟨h4, .inr ⟨h1, h2, h3⟩⟩
    · exact h.elim

theorem waitClose_sep {c : RCfg} {udp : Bool} : Sep (waitClose c udp) := by
  intro n
  dsimp only
  split
  · trivial
  · exact close_sep trivial

/-- The heartbeat watcher of a TCP connection without callback. -/
theorem beat_may {c : RCfg} (hl : c.onLoss = false) {x : Loc} {w : Bool} (n : Nat) (h : May x w (beat c false n)) :
    w = false ∧ x = .poolRef := by
  induction n with
  | zero => exact h.elim
  | succ n ih =>
    obtain ⟨e, h⟩ := h
    have hc : May x w (close c false .done) → w = false ∧ x = .poolRef := by
      intro h
      rcases close_may h with ⟨h1, h2⟩ | ⟨_, h2, _⟩ | h
      · exact ⟨h2, h1⟩
      · cases h2
      · exact h.elim
    dsimp only at h
    split at h
    · exact ih h
    · rw [hl] at h
      repeat' split at h
      all_goals first | exact hc h | exact h.elim | (rename_i e; cases e)

theorem beat_sep (c : RCfg) (udp : Bool) (n : Nat) : Sep (beat c udp n) := by
  induction n with
  | zero => trivial
  | succ n ih =>
    have ht : Sep (.choose fun e =>
        if e = 0 then beat c udp n
        else if e = 1 then if c.onLoss then copy (close c udp .done) else close c udp .done
        else if e = 2 then close c udp .done
        else .done) := by
      intro e
      dsimp only
      repeat' split
      all_goals first | exact ih | exact copy_sep (close_sep trivial) | exact close_sep trivial | trivial
    unfold beat
    dsimp only
    split
    · exact fun _ => ht
    · exact ht

theorem watchers_may {c : RCfg} (hl : c.heartbeat = false ∨ c.onLoss = false) {k : RProg} {x : Loc} {w : Bool}
    (h : May x w (watchers c false k)) : (w = false ∧ x = .poolRef) ∨ May x w k := by
  unfold watchers at h
  dsimp only at h
  have hw : May x w (waitClose c false) → w = false ∧ x = .poolRef := by
    intro h
    obtain ⟨h1, h2 | ⟨_, h2, _⟩⟩ := waitClose_may h
    · exact ⟨h1, h2⟩
    · cases h2
  have h1 : May x w (if (c.auth && !false) = true then .go (waitClose c false) k else k) → (w = false ∧ x = .poolRef) ∨ May x w k := by
    intro h
    split at h
    · exact h.imp hw id
    · exact .inr h
  have h2 : May x w (if c.heartbeat = true then .go (.choose (beat c false)) (if (c.auth && !false) = true then .go (waitClose c false) k else k)
      else (if (c.auth && !false) = true then .go (waitClose c false) k else k)) → (w = false ∧ x = .poolRef) ∨ May x w k := by
    intro h
    split at h
    · rename_i hb
      rcases h with ⟨n, h⟩ | h
      · rcases hl with hl | hl
        · rw [hl] at hb; cases hb
        · exact .inl (beat_may hl n h)
      · exact h1 h
    · exact h1 h
  split at h
  · rcases h with h | h
    · exact .inl (hw h)
    · exact h2 h
  · exact h2 h

/-- Watchers that only read `poolRef` can run beside code that does not write it. -/
theorem watchers_sep {c : RCfg} (hl : c.heartbeat = false ∨ c.onLoss = false) {k : RProg} (hk : Sep k) (hp : ¬ May .poolRef true k) :
    Sep (watchers c false k) := by
  have hw : ∀ {x w}, May x w (waitClose c false) → w = false ∧ x = .poolRef := by
    intro x w h
    obtain ⟨h1, h2 | ⟨_, h2, _⟩⟩ := waitClose_may h
    · exact ⟨h1, h2⟩
    · cases h2
  have clear : ∀ q k', (∀ x w, May x w q → w = false ∧ x = .poolRef) → ¬ May .poolRef true k' → Clear q k' := by
    intro q k' hq hk' x w v h1 h2
    obtain ⟨rfl, rfl⟩ := hq x w h1
    cases v with
    | false => exact ⟨rfl, rfl⟩
    | true => exact absurd h2 hk'
  unfold watchers
  dsimp only
  have s1 : Sep (if (c.auth && !false) = true then .go (waitClose c false) k else k) ∧
      ¬ May .poolRef true (if (c.auth && !false) = true then .go (waitClose c false) k else k) := by
    split
    · refine ⟨⟨clear _ _ (fun _ _ => hw) hp, waitClose_sep, hk⟩, ?_⟩
      rintro (h | h)
      · cases (hw h).1
      · exact hp h
    · exact ⟨hk, hp⟩
  generalize (if (c.auth && !false) = true then RProg.go (waitClose c false) k else k) = k1 at s1
  have s2 : Sep (if c.heartbeat = true then .go (.choose (beat c false)) k1 else k1) ∧
      ¬ May .poolRef true (if c.heartbeat = true then .go (.choose (beat c false)) k1 else k1) := by
    split
    · rename_i hb
      rcases hl with hl | hl
      · rw [hl] at hb; cases hb
      · refine ⟨⟨clear _ _ (fun _ _ ⟨n, h⟩ => beat_may hl n h) s1.2, beat_sep c false, s1.1⟩, ?_⟩
        rintro (⟨n, h⟩ | h)
        · cases (beat_may hl n h).1
        · exact s1.2 h
    · exact s1
  split
  · exact ⟨clear _ _ (fun _ _ => hw) s2.2, waitClose_sep, s2.1⟩
  · exact s2.1

theorem handle_may {x : Loc} {w : Bool} (a m : Nat) (h : May x w (handle a m)) : ∃ b, x = .request b ∧ a ≤ b ∧ b ≤ a + m := by
  induction m generalizing a with
  | zero =>
    rcases h with ⟨h, _⟩ | ⟨_, ⟨h, _⟩ | h⟩
    · exact ⟨a, h.symm, by omega, by omega⟩
    · exact ⟨a, h.symm, by omega, by omega⟩
    · exact h.elim
  | succ m ih =>
    rcases h with ⟨h, _⟩ | ⟨_, ⟨h, _⟩ | h⟩
    · exact ⟨a, h.symm, by omega, by omega⟩
    · exact ⟨a, h.symm, by omega, by omega⟩
    · obtain ⟨b, h1, h2, h3⟩ := ih _ h
      exact ⟨b, h1, by omega, by omega⟩

theorem handle_sep (a m : Nat) : Sep (handle a m) := by
  induction m generalizing a with
  | zero => exact fun _ => trivial
  | succ m ih => exact fun _ => ih _

/-- What the goroutine of a connection accesses: nothing of earlier messages, and `poolRef` only to read it. -/
def Later (a : Nat) (p : RProg) : Prop := (∀ b w, May (.request b) w p → a ≤ b) ∧ ¬ May .poolRef true p

theorem own_ne {x : Loc} {b : Nat} (h : Own x) : x ≠ .request b := by
  rintro rfl
  rcases h with h | h | h | h | h <;> cases h

theorem group_later {k : RProg} {a : Nat} (a' m : Nat) (ha : a ≤ a') (hk : Later a k) : Later a (group k a' m) := by
  induction m generalizing a' with
  | zero => exact hk
  | succ m ih =>
    obtain ⟨i1, i2⟩ := ih (a' + 1) (by omega)
    refine ⟨?_, ?_⟩
    · intro b w h
      rcases h with ⟨h, _⟩ | h
      · cases h
      · rcases copy_may h with ⟨_, h⟩ | ⟨h, _⟩ | h
        · exact absurd rfl (own_ne h)
        · cases h; exact ha
        · exact i1 b w h
    · intro h
      rcases h with ⟨h, _⟩ | h
      · cases h
      · rcases copy_may h with ⟨h, _⟩ | ⟨h, _⟩ | h
        · cases h
        · cases h
        · exact i2 h

theorem group_sep {k : RProg} (hk : Sep k) (a m : Nat) : Sep (group k a m) := by
  induction m generalizing a with
  | zero => exact hk
  | succ m ih => exact copy_sep (ih _)

theorem fin_later (c : RCfg) (a : Nat) : Later a (callback (close c false .done)) := by
  refine ⟨?_, ?_⟩
  · intro b w h
    rcases callback_may h with ⟨_, h⟩ | h | h
    · exact absurd rfl (own_ne h)
    · cases h
    · rcases close_may h with ⟨h, _⟩ | ⟨_, _, h, _⟩ | h
      · cases h
      · cases h
      · exact h.elim
  · intro h
    rcases callback_may h with ⟨h, _⟩ | h | h
    · cases h
    · cases h
    · rcases close_may h with ⟨_, h⟩ | ⟨_, _, h, _⟩ | h
      · cases h
      · cases h
      · exact h.elim

theorem conn_later (c : RCfg) (a n : Nat) : Later a (conn c a n) := by
  induction n generalizing a with
  | zero => exact fin_later c a
  | succ n ih =>
    have hg : ∀ m, Later a (group (.go (handle a m) (conn c (a + 1 + m) n)) (a + 1) m) := by
      intro m
      refine group_later _ _ (by omega) ⟨?_, ?_⟩
      · rintro b w (h | h)
        · obtain ⟨b', h1, h2, _⟩ := handle_may a m h
          cases h1; exact h2
        · have := (ih (a + 1 + m)).1 b w h
          omega
      · rintro (h | h)
        · obtain ⟨b', h1, _⟩ := handle_may a m h
          cases h1
        · exact (ih _).2 h
    have ho := fin_later c a
    refine ⟨?_, ?_⟩
    · intro b w h
      rcases h with ⟨h, _⟩ | ⟨e, h⟩
      · cases h
      · dsimp only at h
        split at h
        · exact ho.1 b w h
        · rcases copy_may h with ⟨_, h⟩ | ⟨h, _⟩ | ⟨m, h⟩
          · exact absurd rfl (own_ne h)
          · cases h; omega
          · exact (hg m).1 b w h
    · intro h
      rcases h with ⟨h, _⟩ | ⟨e, h⟩
      · cases h
      · dsimp only at h
        split at h
        · exact ho.2 h
        · rcases copy_may h with ⟨h, _⟩ | ⟨h, _⟩ | ⟨m, h⟩
          · cases h
          · cases h
          · exact (hg m).2 h

theorem conn_sep (c : RCfg) (a n : Nat) : Sep (conn c a n) := by
  induction n generalizing a with
  | zero => exact callback_sep (close_sep trivial)
  | succ n ih =>
    intro e
    dsimp only
    split
    · exact callback_sep (close_sep trivial)
    · apply copy_sep
      intro m
      apply group_sep
      refine ⟨?_, handle_sep a m, ih _⟩
      intro x w v h1 h2
      obtain ⟨b, rfl, _, hb⟩ := handle_may a m h1
      have := (conn_later c (a + 1 + m) n).1 b v h2
      omega

theorem tcp_sep {c : RCfg} (hl : c.heartbeat = false ∨ c.onLoss = false) : Sep (tcp c) := by
  have h : Sep (callback <| watchers c false <| .go (.choose fun n => conn c 0 n) .done) := by
    refine callback_sep ?_
    apply watchers_sep hl
    · exact ⟨fun x w v _ h => h.elim, fun n => conn_sep c 0 n, trivial⟩
    · rintro (⟨n, h⟩ | h)
      · exact (conn_later c 0 n).2 h
      · exact h
  unfold tcp
  dsimp only
  split
  · exact h
  · exact h

theorem raw_sep {c : RCfg} (hl : c.heartbeat = false ∨ c.onLoss = false) : Sep (raw c) := by
  have h : Sep (callback <| watchers { c with auth := false } false <|
      .go (.write .ends 1 <| copy <| .write (.request 0) 0 <| .read (.request 0) fun _ => .write (.request 0) 0 <|
        callback (close c false .done)) .done) := by
    refine callback_sep ?_
    apply watchers_sep (c := { c with auth := false }) hl
    · exact ⟨fun x w v _ h => h.elim, copy_sep fun _ => callback_sep (close_sep trivial), trivial⟩
    · rintro ((⟨h, _⟩ | h) | h)
      · cases h
      · rcases copy_may h with ⟨h, _⟩ | ⟨h, _⟩ | ⟨h, _⟩ | ⟨_, ⟨h, _⟩ | h⟩
        · cases h
        · cases h
        · cases h
        · cases h
        · exact (fin_later c 0).2 h
      · exact h
  unfold raw
  dsimp only
  split
  · exact h
  · exact h

theorem datagram_sep {c : RCfg} (h1 : c.heartbeat = false) (h2 : c.signals = false ∨ c.builtIn = false) : Sep (datagram c) := by
  let k : RProg := .write .stream 0 <| .choose fun e =>
    if e = 0 then .done
    else .go (copy <| .write .chain 0 <| .write .reqStore 0 .done) .done
  have hk : Sep k := by
    intro e
    dsimp only
    split
    · trivial
    · refine ⟨?_, copy_sep trivial, trivial⟩
      intro x w v _ h; exact h.elim
  have hw : ¬ May .poolRef true k := by
    rintro (⟨h, _⟩ | ⟨e, h⟩)
    · cases h
    · dsimp only at h
      split at h
      · exact h
      · rcases h with h | h
        · rcases copy_may h with ⟨h, _⟩ | ⟨h, _⟩ | ⟨h, _⟩ | h
          · cases h
          · cases h
          · cases h
          · exact h
        · exact h
  show Sep (watchers c true (if c.builtIn then .write .poolRef 1 k else k))
  unfold watchers
  simp only [h1, Bool.not_true, Bool.and_false, Bool.false_eq_true, if_false]
  split
  · rename_i hs
    rcases h2 with h2 | h2
    · rw [h2] at hs; cases hs
    · simp only [h2, Bool.false_eq_true, if_false]
      refine ⟨?_, waitClose_sep, hk⟩
      intro x w v g1 g2
      obtain ⟨rfl, rfl | ⟨g, _⟩⟩ := waitClose_may g1
      · cases v with
        | false => exact ⟨rfl, rfl⟩
        | true => exact absurd g2 hw
      · rw [h2] at g; cases g
  · split
    · exact hk
    · exact hk

end Race

end Tcpx
