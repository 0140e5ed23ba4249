import Verif.Spec.Alias
/-! # Ownership of the arrays behind registered slices -/
namespace Tcpx
open Spec

/-- Where slices are kept. -/
inductive Slot where
  | var (v : Nat)
  | global
  | self (id : Int)
  | url (p : String)
deriving DecidableEq

def AState.at (s : AState) : Slot → Option Sl
  | .var v => s.vars v
  | .global => some s.global
  | .self id => s.self id
  | .url p => s.url p

/-- The slots whose arrays belong to them alone. -/
def Slot.owned (P : String → Bool) : Slot → Bool
  | .var _ => false
  | .global => true
  | .self _ => true
  | .url p => P p

def Sl.Valid (h : Heap) (x : Sl) : Prop := x.arr < h.length ∧ x.off + x.len ≤ (h.array x.arr).length

structure AInv (P : String → Bool) (s : AState) : Prop where
  valid : ∀ c x, s.at c = some x → x.Valid s.heap
  alone : ∀ c d x y, c ≠ d → c.owned P = true → s.at c = some x → s.at d = some y → x.arr ≠ y.arr

/-- The heap keeps its arrays, except the contents of the one at `z`. -/
structure Grow (z : Nat) (h h' : Heap) : Prop where
  len : h.length ≤ h'.length
  size : ∀ a, a < h.length → (h'.array a).length = (h.array a).length
  same : ∀ a, a < h.length → a ≠ z → h'.array a = h.array a

namespace Heap

theorem array_append_lt (h : Heap) (xs : List Fn) (a : Nat) (ha : a < h.length) : Heap.array (h ++ [xs]) a = h.array a := by
  simp [array, List.getElem?_append_left ha]

theorem array_append_eq (h : Heap) (xs : List Fn) : Heap.array (h ++ [xs]) h.length = xs := by
  simp [array]

theorem grow_refl (h : Heap) (z : Nat) : Grow z h h := ⟨Nat.le_refl _, fun _ _ => rfl, fun _ _ _ => rfl⟩

theorem grow_alloc (h : Heap) (xs : List Fn) (e z : Nat) : Grow z h (h.alloc xs e).1 := by
  refine ⟨by simp [alloc], fun a ha => ?_, fun a ha _ => ?_⟩ <;> simp only [alloc] <;> rw [array_append_lt _ _ _ ha]

theorem valid_alloc (h : Heap) (xs : List Fn) (e : Nat) : (h.alloc xs e).2.Valid (h.alloc xs e).1 := by
  constructor <;> simp [alloc, array_append_eq]

theorem read_alloc (h : Heap) (xs : List Fn) (e : Nat) : (h.alloc xs e).1.read (h.alloc xs e).2 = xs := by
  simp [alloc, read, array_append_eq]

theorem arr_alloc (h : Heap) (xs : List Fn) (e : Nat) : (h.alloc xs e).2.arr = h.length := rfl

theorem array_store (h : Heap) (z a : Nat) (xs : List Fn) (hz : z < h.length) :
    (h.store z xs).array a = if a = z then xs else h.array a := by
  simp only [store, array, List.getElem?_set]
  by_cases h1 : z = a
  · subst h1; simp [hz]
  · simp [h1, Ne.symm h1]

theorem grow_store (h : Heap) (z : Nat) (xs : List Fn) (hz : z < h.length) (hl : xs.length = (h.array z).length) :
    Grow z h (h.store z xs) := by
  refine ⟨by simp [store], fun a _ => ?_, fun a _ hne => ?_⟩
  · rw [array_store _ _ _ _ hz]
    by_cases h1 : a = z
    · simp [h1, hl]
    · simp [h1]
  · rw [array_store _ _ _ _ hz]; simp [hne]

theorem grow_append (h : Heap) (x : Sl) (xs : List Fn) (e : Nat) (hx : x.Valid h) : Grow x.arr h (h.append x xs e).1 := by
  simp only [append]
  split
  · refine grow_store _ _ _ hx.1 ?_
    have := hx.2
    simp only [List.length_append, List.length_take, List.length_drop]
    omega
  · exact grow_alloc _ _ _ _

theorem valid_append (h : Heap) (x : Sl) (xs : List Fn) (e : Nat) (hx : x.Valid h) :
    (h.append x xs e).2.Valid (h.append x xs e).1 := by
  simp only [append]
  split
  · refine ⟨by simpa [store] using hx.1, ?_⟩
    simp only [array_store _ _ _ _ hx.1, if_true]
    have := hx.2
    simp only [List.length_append, List.length_take, List.length_drop]
    omega
  · exact valid_alloc _ _ _

theorem arr_append (h : Heap) (x : Sl) (xs : List Fn) (e : Nat) :
    (h.append x xs e).2.arr = x.arr ∨ (h.append x xs e).2.arr = h.length := by
  simp only [append]
  split
  · exact .inl rfl
  · exact .inr rfl

theorem read_append (h : Heap) (x : Sl) (xs : List Fn) (e : Nat) (hx : x.Valid h) :
    (h.append x xs e).1.read (h.append x xs e).2 = h.read x ++ xs := by
  have h2 := hx.2
  simp only [append]
  split
  · rename_i hc
    simp only [read, array_store _ _ _ _ hx.1, if_true]
    rw [List.append_assoc, List.drop_append, List.take_append, List.drop_take]
    simp only [List.length_drop, List.length_take, Nat.add_sub_cancel_left]
    have e1 : x.off - min (x.off + x.len) (h.array x.arr).length = 0 := by omega
    have e2 : x.len + xs.length - (min (x.off + x.len) (h.array x.arr).length - x.off) = xs.length := by omega
    rw [List.take_take]
    simp only [e1, List.drop_zero]
    rw [show min (x.len + xs.length) x.len = x.len by omega]
    congr 1
    rw [show x.len + xs.length - min x.len ((h.array x.arr).length - x.off) = xs.length by omega]
    simp
  · exact read_alloc _ _ _

theorem length_read (h : Heap) (x : Sl) (hx : x.Valid h) : (h.read x).length = x.len := by
  have := hx.2
  simp only [read, List.length_take, List.length_drop]; omega

theorem read_grow {z : Nat} {h h' : Heap} (g : Grow z h h') (x : Sl) (hx : x.Valid h) (hz : x.arr ≠ z) : h'.read x = h.read x := by
  simp only [read, g.same _ hx.1 hz]

theorem valid_grow {z : Nat} {h h' : Heap} (g : Grow z h h') (x : Sl) (hx : x.Valid h) : x.Valid h' :=
  ⟨Nat.lt_of_lt_of_le hx.1 g.len, by rw [g.size _ hx.1]; exact hx.2⟩

end Heap

theorem AInv.unused {P : String → Bool} {s : AState} (hi : AInv P s) {a : Nat} (h : s.heap.length ≤ a) :
    ∀ b w, s.at b = some w → w.arr ≠ a := by
  intro b w hw
  have := (hi.valid b w hw).1; omega

/-- One slot gets a slice, over a new array or over one it may use. -/
theorem AInv.put {P : String → Bool} {s s' : AState} (hi : AInv P s) {c : Slot} {y : Sl} {z : Nat}
    (g : Grow z s.heap s'.heap) (hc : s'.at c = some y) (ho : ∀ b, b ≠ c → s'.at b = s.at b) (hv : y.Valid s'.heap)
    (hy : (∀ b w, s.at b = some w → w.arr ≠ y.arr) ∨ ∃ d x, s.at d = some x ∧ x.arr = y.arr ∧ (d = c ∨ d.owned P = false ∧ c.owned P = false)) :
    AInv P s' := by
  have key : ∀ b x, b ≠ c → (b.owned P = true ∨ c.owned P = true) → s.at b = some x → x.arr ≠ y.arr := by
    intro b x hb hbo hx
    rcases hy with hy | ⟨d, w, hd, hw, hdc | ⟨hd1, hd2⟩⟩
    · exact hy b x hx
    · subst hdc
      rw [← hw]
      rcases hbo with hbo | hbo
      · exact hi.alone b d x w hb hbo hx hd
      · exact (hi.alone d b w x (Ne.symm hb) hbo hd hx).symm
    · rw [hd2] at hbo
      rcases hbo with hbo | hbo
      · rw [← hw]
        refine hi.alone b d x w ?_ hbo hx hd
        intro e; subst e; rw [hd1] at hbo; cases hbo
      · cases hbo
  constructor
  · intro b x hx
    by_cases hb : b = c
    · subst hb; rw [hc] at hx; cases hx; exact hv
    · rw [ho b hb] at hx; exact Heap.valid_grow g x (hi.valid b x hx)
  · intro b d x w hbd hbo hx hw
    by_cases hb : b = c
    · subst hb
      rw [hc] at hx; cases hx
      rw [ho d (Ne.symm hbd)] at hw
      exact (key d w (Ne.symm hbd) (.inr hbo) hw).symm
    · rw [ho b hb] at hx
      by_cases hd : d = c
      · subst hd
        rw [hc] at hw; cases hw
        exact key b x hb (.inl hbo) hx
      · rw [ho d hd] at hw
        exact hi.alone b d x w hbd hbo hx hw

/-- No slot changes. -/
theorem AInv.heap {P : String → Bool} {s s' : AState} (hi : AInv P s) {z : Nat} (g : Grow z s.heap s'.heap)
    (ho : ∀ b, s'.at b = s.at b) : AInv P s' := by
  refine ⟨fun c x hx => ?_, fun c d x y hcd hc hx hy => ?_⟩
  · rw [ho] at hx; exact Heap.valid_grow g x (hi.valid c x hx)
  · rw [ho] at hx hy; exact hi.alone c d x y hcd hc hx hy

/-- The elements behind a slot. -/
def AState.val (s : AState) (c : Slot) : List Fn := match s.at c with
  | none => []
  | some x => s.heap.read x

/-- A slot keeps its elements if it stays and the array written to is not its own. -/
theorem AInv.keep {P : String → Bool} {s s' : AState} (hi : AInv P s) {z : Nat} (g : Grow z s.heap s'.heap) (b : Slot)
    (ho : s'.at b = s.at b) (hz : ∀ x, s.at b = some x → x.arr ≠ z) : s'.val b = s.val b := by
  simp only [AState.val, ho]
  cases h : s.at b with
  | none => rfl
  | some x => exact Heap.read_grow g x (hi.valid b x h) (hz x h)

theorem AInv.init (P : String → Bool) : AInv P AState.init := by
  constructor
  · intro c x hx
    cases c <;> simp [AState.at, AState.init] at hx
    subst hx
    exact ⟨by simp [AState.init], by simp [AState.init, Heap.array]⟩
  · intro c d x y hcd _ hx hy
    cases c <;> cases d <;> simp [AState.at, AState.init] at hx hy hcd

/-- One slot gets a value; the owned slots beside it keep theirs. -/
structure Does (P : String → Bool) (s s' : AState) (c : Slot) (v : List Fn) : Prop where
  inv : AInv P s'
  val : s'.val c = v
  some : (s'.at c).isSome = true
  others : ∀ b, b ≠ c → s'.at b = s.at b
  keeps : ∀ b, b ≠ c → b.owned P = true → s'.val b = s.val b
  handler : s'.handler = s.handler

/-- A slot gets a slice over an array no slot uses. -/
theorem does_new {P : String → Bool} {s s' : AState} (hi : AInv P s) (c : Slot) (y : Sl) (z : Nat)
    (g : Grow z s.heap s'.heap) (hz : ∀ b w, s.at b = some w → w.arr ≠ z) (hc : s'.at c = some y)
    (ho : ∀ b, b ≠ c → s'.at b = s.at b) (hv : y.Valid s'.heap)
    (hy : ∀ b w, s.at b = some w → w.arr ≠ y.arr) (hh : s'.handler = s.handler) : Does P s s' c (s'.heap.read y) :=
  ⟨hi.put g hc ho hv (.inl hy), by simp [AState.val, hc], by simp [hc], ho, fun b hb _ => hi.keep g b (ho b hb) (hz b), hh⟩

/-- A slot gets what `append` makes of the slice in a slot it may use. -/
theorem does_append {P : String → Bool} {s s' : AState} (hi : AInv P s) (c d : Slot) (x : Sl) (xs : List Fn) (e : Nat)
    (hd : s.at d = some x) (hdc : d = c ∨ d.owned P = false ∧ c.owned P = false)
    (hh : s'.heap = (s.heap.append x xs e).1) (hc : s'.at c = some (s.heap.append x xs e).2)
    (ho : ∀ b, b ≠ c → s'.at b = s.at b) (hf : s'.handler = s.handler) : Does P s s' c (s.heap.read x ++ xs) := by
  have hx := hi.valid d x hd
  have g : Grow x.arr s.heap s'.heap := hh ▸ Heap.grow_append s.heap x xs e hx
  refine ⟨hi.put g hc ho (hh ▸ Heap.valid_append s.heap x xs e hx) ?_, ?_, by simp [hc], ho, fun b hb hbo => hi.keep g b (ho b hb) fun w hw => ?_, hf⟩
  · rcases Heap.arr_append s.heap x xs e with h | h
    · exact .inr ⟨d, x, hd, h.symm, hdc⟩
    · exact .inl (hi.unused (Nat.le_of_eq h.symm))
  · simp only [AState.val, hc, hh]; exact Heap.read_append s.heap x xs e hx
  · refine hi.alone b d w x ?_ hbo hw hd
    rintro rfl
    rcases hdc with h | h
    · exact hb h
    · rw [h.1] at hbo; cases hbo

/-- A slot gets a slice of the array of a slot it may use. -/
theorem does_share {P : String → Bool} {s s' : AState} (hi : AInv P s) (c d : Slot) (x y : Sl)
    (hd : s.at d = some x) (hdc : d.owned P = false ∧ c.owned P = false) (hxy : x.arr = y.arr) (hy : y.Valid s.heap)
    (hh : s'.heap = s.heap) (hc : s'.at c = some y)
    (ho : ∀ b, b ≠ c → s'.at b = s.at b) (hf : s'.handler = s.handler) : Does P s s' c (s.heap.read y) := by
  have g : Grow s.heap.length s.heap s'.heap := hh ▸ Heap.grow_refl _ _
  refine ⟨hi.put g hc ho (hh ▸ hy) (.inr ⟨d, x, hd, hxy, .inr hdc⟩), by simp [AState.val, hc, hh], by simp [hc], ho,
    fun b hb _ => hi.keep g b (ho b hb) fun w hw => ?_, hf⟩
  have := (hi.valid b w hw).1; omega

theorem at_setVar (s : AState) (v : Nat) (h : Heap) (x : Sl) (b : Slot) :
    (s.setVar v h x).at b = if b = .var v then some x else s.at b := by
  cases b <;> simp [AState.at, AState.setVar]

/-- The operations of the caller on its own variables change no owned slot. -/
structure Quiet (P : String → Bool) (s s' : AState) : Prop where
  inv : AInv P s'
  others : ∀ b, (∀ v, b ≠ .var v) → s'.at b = s.at b
  keeps : ∀ b, b.owned P = true → s'.val b = s.val b
  handler : s'.handler = s.handler

theorem Quiet.refl {P : String → Bool} {s : AState} (hi : AInv P s) : Quiet P s s := ⟨hi, fun _ _ => rfl, fun _ _ => rfl, rfl⟩

theorem Does.quiet {P : String → Bool} {s s' : AState} {v : Nat} {xs : List Fn} (h : Does P s s' (.var v) xs) : Quiet P s s' :=
  ⟨h.inv, fun b hb => h.others b (hb v), fun b hb => h.keeps b (by rintro rfl; cases hb) hb, h.handler⟩

theorem step_user {P : String → Bool} {s : AState} (hi : AInv P s) (op : AOp) (ho : isCall op = false) : Quiet P s (s.step op) := by
  cases op with
  | new v xs e =>
    exact Does.quiet (v := v) (does_new hi (.var v) (s.heap.alloc xs e).2 s.heap.length (Heap.grow_alloc _ _ _ _)
      (hi.unused (Nat.le_refl _)) (by simp [AState.step, at_setVar])
      (fun b hb => by simp [AState.step, at_setVar, hb]) (Heap.valid_alloc _ _ _) (hi.unused (Nat.le_refl _)) rfl)
  | copy v w =>
    cases h : s.vars w with
    | none => simp only [AState.step, h]; exact .refl hi
    | some x =>
      simp only [AState.step, h]
      exact Does.quiet (v := v) (does_share hi (.var v) (.var w) x x h ⟨rfl, rfl⟩ rfl (hi.valid (.var w) x h) rfl (by simp [at_setVar])
        (fun b hb => by simp [at_setVar, hb]) rfl)
  | reslice v w i j =>
    cases h : s.vars w with
    | none => simp only [AState.step, h]; exact .refl hi
    | some x =>
      simp only [AState.step, h]
      split
      · rename_i hc
        have hx := hi.valid (.var w) x h
        exact Does.quiet (v := v) (does_share hi (.var v) (.var w) x ⟨x.arr, x.off + i, j - i⟩ h ⟨rfl, rfl⟩ rfl ⟨hx.1, by simp only; omega⟩ rfl
          (by simp [at_setVar]) (fun b hb => by simp [at_setVar, hb]) rfl)
      · exact .refl hi
  | append v w xs e =>
    cases h : s.vars w with
    | none => simp only [AState.step, h]; exact .refl hi
    | some x =>
      simp only [AState.step, h]
      exact Does.quiet (v := v) (does_append hi (.var v) (.var w) x xs e h (.inr ⟨rfl, rfl⟩) rfl (by simp [at_setVar])
        (fun b hb => by simp [at_setVar, hb]) rfl)
  | set v i f =>
    cases h : s.vars v with
    | none => simp only [AState.step, h]; exact .refl hi
    | some x =>
      simp only [AState.step, h]
      split
      · have hx := hi.valid (.var v) x h
        have g := Heap.grow_store s.heap x.arr ((s.heap.array x.arr).set (x.off + i) f) hx.1 (by simp)
        have ho : ∀ b, AState.at { s with heap := s.heap.store x.arr ((s.heap.array x.arr).set (x.off + i) f) } b = s.at b := by
          intro b; cases b <;> rfl
        exact ⟨hi.heap g ho, fun b _ => ho b, fun b hb => hi.keep g b (ho b) fun y hy =>
          hi.alone b (.var v) y x (by rintro rfl; cases hb) hb hy h, rfl⟩
      · exact .refl hi
  | _ => cases ho

theorem step_global {P : String → Bool} {s : AState} (hi : AInv P s) (v e : Nat) :
    Does P s (s.step (.useGlobal v e)) .global (s.val .global ++ held s v) := by
  cases h : s.vars v with
  | none =>
    simp only [AState.step, h, held, List.append_nil]
    exact ⟨hi, rfl, rfl, fun _ _ => rfl, fun _ _ _ => rfl, rfl⟩
  | some x =>
    simp only [AState.step, h, held]
    refine does_append hi .global .global s.global (s.heap.read x) e rfl (.inl rfl) rfl rfl ?_ rfl
    intro b hb; cases b <;> first | rfl | exact absurd rfl hb

theorem addSelf_growth (s : AState) (id : Int) (xs : List Fn) (e : Nat) : Grow s.heap.length s.heap (s.addSelf id xs e).heap := by
  have hv := Heap.valid_alloc s.heap [] 10
  have g1 : Grow s.heap.length s.heap (s.heap.alloc [] 10).1 := Heap.grow_alloc _ _ _ _
  have g2 := Heap.grow_append (s.heap.alloc [] 10).1 (s.heap.alloc [] 10).2 xs e hv
  refine ⟨Nat.le_trans g1.len g2.len, fun a ha => ?_, fun a ha hne => ?_⟩
  · exact (g2.size a (Nat.lt_of_lt_of_le ha g1.len)).trans (g1.size a ha)
  · exact (g2.same a (Nat.lt_of_lt_of_le ha g1.len) hne).trans (g1.same a ha hne)

theorem addSelf_does {P : String → Bool} {s : AState} (hi : AInv P s) (id : Int) (xs : List Fn) (e : Nat) :
    Does P s (s.addSelf id xs e) (.self id) xs := by
  have hv := Heap.valid_alloc s.heap [] 10
  have g1 : Grow s.heap.length s.heap (s.heap.alloc [] 10).1 := Heap.grow_alloc _ _ _ _
  have g := addSelf_growth s id xs e
  have hr := Heap.read_append (s.heap.alloc [] 10).1 (s.heap.alloc [] 10).2 xs e hv
  rw [Heap.read_alloc, List.nil_append] at hr
  have hc : (s.addSelf id xs e).at (.self id) = some ((s.heap.alloc [] 10).1.append (s.heap.alloc [] 10).2 xs e).2 := by
    simp [AState.addSelf, AState.at]
  have ho : ∀ b, b ≠ .self id → (s.addSelf id xs e).at b = s.at b := by
    intro b hb; cases b <;> simp_all [AState.addSelf, AState.at]
  have hval := Heap.valid_append (s.heap.alloc [] 10).1 (s.heap.alloc [] 10).2 xs e hv
  have hd := does_new hi (.self id) _ s.heap.length g (hi.unused (Nat.le_refl _)) hc ho hval (hi.unused (by
    rcases Heap.arr_append (s.heap.alloc [] 10).1 (s.heap.alloc [] 10).2 xs e with h | h <;> rw [h]
    · exact Nat.le_refl _
    · exact g1.len)) rfl
  have e1 : (s.addSelf id xs e).heap.read ((s.heap.alloc [] 10).1.append (s.heap.alloc [] 10).2 xs e).2 = xs := hr
  rwa [e1] at hd

/-- What `AddHandler` does: the middlewares of the id, its handler, nothing else. -/
structure Adds (P : String → Bool) (s s' : AState) (id : Int) : Prop where
  inv : AInv P s'
  others : ∀ b, b ≠ .self id → s'.at b = s.at b
  keeps : ∀ b, b ≠ .self id → b.owned P = true → s'.val b = s.val b
  old : s.self id ≠ none → s'.val (.self id) = s.val (.self id) ∧ s'.self id = s.self id
  handler : ∀ i, i ≠ id ∨ s.handler id ≠ none → s'.handler i = s.handler i

theorem addHandler_adds {P : String → Bool} {s : AState} (hi : AInv P s) (id : Int) (xs : List Fn) (e : Nat) :
    Adds P s (s.addHandler id xs e) id := by
  have hrefl : Adds P s s id := ⟨hi, fun _ _ => rfl, fun _ _ _ => rfl, fun _ => ⟨rfl, rfl⟩, fun _ _ => rfl⟩
  have hset : ∀ (t : AState) (f : Fn), Adds P s t id → t.handler = s.handler → t.handler id = none →
      Adds P s { t with handler := fun i => if i = id then some f else t.handler i } id := by
    intro t f h hh hn
    have hat : ∀ b, AState.at { t with handler := fun i => if i = id then some f else t.handler i } b = t.at b := by
      intro b; cases b <;> rfl
    have hval : ∀ b, AState.val { t with handler := fun i => if i = id then some f else t.handler i } b = t.val b := by
      intro b; simp only [AState.val, hat]
    refine ⟨h.inv.heap (Heap.grow_refl _ 0) hat, fun b hb => (hat b).trans (h.others b hb),
      fun b hb ho => (hval b).trans (h.keeps b hb ho), fun ho => ⟨(hval _).trans (h.old ho).1, (h.old ho).2⟩, fun i hi' => ?_⟩
    rw [hh] at hn
    have hne : i ≠ id := by
      rcases hi' with h | h
      · exact h
      · exact absurd hn h
    simp only [if_neg hne, hh]
  unfold AState.addHandler
  cases xs.getLast? with
  | none => exact hrefl
  | some f =>
    dsimp only
    by_cases h1 : xs.dropLast ≠ []
    · by_cases h2 : s.self id ≠ none
      · rw [if_pos ⟨h1, h2⟩]; exact hrefl
      · rw [if_neg (fun h => h2 h.2), if_pos h1]
        have hd := addSelf_does hi id xs.dropLast e
        have ha : Adds P s (s.addSelf id xs.dropLast e) id :=
          ⟨hd.inv, hd.others, hd.keeps, fun h => absurd h h2, fun i _ => by rw [hd.handler]⟩
        split
        · exact ha
        · rename_i h3; exact hset _ f ha hd.handler (Decidable.not_not.mp h3)
    · rw [if_neg (fun h => h1 h.1), if_neg h1]
      split
      · exact hrefl
      · rename_i h3; exact hset _ f hrefl rfl (Decidable.not_not.mp h3)

theorem addHandler_fresh {P : String → Bool} {s : AState} (hi : AInv P s) (id : Int) (mws : List Fn) (f : Fn) (e : Nat)
    (h1 : mws = [] ∨ s.self id = none) (h2 : s.handler id = none) :
    (s.addHandler id (mws ++ [f]) e).handler id = some f ∧
    (mws ≠ [] → (s.addHandler id (mws ++ [f]) e).val (.self id) = mws ∧ (s.addHandler id (mws ++ [f]) e).self id ≠ none) := by
  have hd := addSelf_does hi id mws e
  have hs := hd.some
  have hv := hd.val
  have hh := hd.handler
  unfold AState.addHandler
  simp only [List.getLast?_concat, List.dropLast_concat]
  have hnot : ¬ (mws ≠ [] ∧ s.self id ≠ none) := by
    rintro ⟨ha, hb⟩; rcases h1 with h | h
    · exact ha h
    · exact hb h
  rw [if_neg hnot]
  by_cases hm : mws ≠ []
  · rw [if_pos hm]
    rw [hh, if_neg (by simp [h2])]
    refine ⟨by simp, fun _ => ⟨?_, ?_⟩⟩
    · exact hv
    · intro hn
      simp only [AState.at] at hs
      rw [show (s.addSelf id mws e).self id = none from hn] at hs; cases hs
  · rw [if_neg hm, if_neg (by simp [h2])]
    exact ⟨by simp, fun h => absurd h hm⟩

/-- `addURL` with a slice the pattern may hold. -/
theorem addURL_does {P : String → Bool} {s : AState} (hi : AInv P s) (p : String) (x : Sl) (e : Nat) (hx : x.Valid s.heap)
    (ha : s.url p = none → (∀ b y, s.at b = some y → y.arr ≠ x.arr) ∨ P p = false ∧ ∃ v y, s.vars v = some y ∧ y.arr = x.arr) :
    Does P s (s.addURL p x e) (.url p) (s.val (.url p) ++ s.heap.read x) := by
  unfold AState.addURL
  cases h : s.url p with
  | none =>
    have hval : s.val (.url p) = [] := by simp [AState.val, AState.at, h]
    rw [hval, List.nil_append]
    dsimp only
    have ho : ∀ b, b ≠ .url p → AState.at { s with url := fun q => if q = p then some x else s.url q } b = s.at b := by
      intro b hb; cases b <;> simp_all [AState.at]
    rcases ha h with hf | ⟨hp, v, y, hy, hyx⟩
    · exact does_new hi (.url p) x s.heap.length (Heap.grow_refl _ _) (hi.unused (Nat.le_refl _)) (by simp [AState.at]) ho hx hf rfl
    · exact does_share hi (.url p) (.var v) y x hy ⟨rfl, hp⟩ hyx hx rfl (by simp [AState.at]) ho rfl
  | some y =>
    dsimp only
    have hval : s.val (.url p) = s.heap.read y := by simp [AState.val, AState.at, h]
    rw [hval]
    refine does_append hi (.url p) (.url p) y (s.heap.read x) e h (.inl rfl) rfl (by simp [AState.at]) ?_ rfl
    intro b hb; cases b <;> simp_all [AState.at]

theorem Does.trans {P : String → Bool} {s t u : AState} {c : Slot} {v w : List Fn} (h1 : Does P s t c v) (h2 : Does P t u c w) :
    Does P s u c w :=
  ⟨h2.inv, h2.val, h2.some, fun b hb => (h2.others b hb).trans (h1.others b hb),
    fun b hb ho => (h2.keeps b hb ho).trans (h1.keeps b hb ho), h2.handler.trans h1.handler⟩

theorem addURL_grow {P : String → Bool} {s : AState} (hi : AInv P s) (p : String) (x : Sl) (e : Nat) :
    ∃ z, Grow z s.heap (s.addURL p x e).heap ∧ (z = s.heap.length ∨ ∃ y, s.url p = some y ∧ z = y.arr) := by
  unfold AState.addURL
  cases h : s.url p with
  | none => exact ⟨s.heap.length, Heap.grow_refl _ _, .inl rfl⟩
  | some y => exact ⟨y.arr, Heap.grow_append _ _ _ _ (hi.valid (.url p) y h), .inr ⟨y, rfl, rfl⟩⟩

/-- `any` with a literal list. -/
theorem anyNew_does {P : String → Bool} {s : AState} (hi : AInv P s) (p : String) (xs : List Fn) (e : Nat) (hne : xs ≠ []) :
    Does P s (s.step (.anyNew p xs e)) (.url p) (s.val (.url p) ++ doubled xs) := by
  have g : Grow s.heap.length s.heap (s.heap.alloc xs 0).1 := Heap.grow_alloc _ _ _ _
  have hat : ∀ b, AState.at { s with heap := (s.heap.alloc xs 0).1 } b = s.at b := by intro b; cases b <;> rfl
  have hi1 : AInv P { s with heap := (s.heap.alloc xs 0).1 } := hi.heap g hat
  have hval1 : ∀ b, AState.val { s with heap := (s.heap.alloc xs 0).1 } b = s.val b := fun b => hi.keep g b (hat b) (hi.unused (Nat.le_refl _) b)
  have hx : (s.heap.alloc xs 0).2.Valid (s.heap.alloc xs 0).1 := Heap.valid_alloc _ _ _
  have hr := Heap.read_alloc s.heap xs 0
  have hun : ∀ b y, AState.at { s with heap := (s.heap.alloc xs 0).1 } b = some y → y.arr ≠ (s.heap.alloc xs 0).2.arr := by
    intro b y hy; rw [hat] at hy; exact hi.unused (Nat.le_refl _) b y hy
  have d1 := addURL_does hi1 p (s.heap.alloc xs 0).2 e hx (fun _ => .inl hun)
  rw [show Heap.read (AState.heap { s with heap := (s.heap.alloc xs 0).1 }) (s.heap.alloc xs 0).2 = xs from hr, hval1] at d1
  have back : ∀ t v, Does P { s with heap := (s.heap.alloc xs 0).1 } t (.url p) v → Does P s t (.url p) v := fun t v d =>
    ⟨d.inv, d.val, d.some, fun b hb => (d.others b hb).trans (hat b), fun b hb ho => (d.keeps b hb ho).trans (hval1 b), d.handler⟩
  have hlen : (s.heap.alloc xs 0).2.len = xs.length := rfl
  show Does P s (AState.any { s with heap := (s.heap.alloc xs 0).1 } p (s.heap.alloc xs 0).2 e) _ _
  apply back
  unfold AState.any doubled
  have h0 : xs.length ≠ 0 := by simpa using hne
  rw [hlen, if_neg h0]
  by_cases h1 : xs.length = 1
  · rw [if_pos h1, if_pos (by omega)]; exact d1
  · rw [if_neg h1, if_neg (by omega)]
    obtain ⟨z, gz, hz⟩ := addURL_grow hi1 p (s.heap.alloc xs 0).2 e
    have hne : (s.heap.alloc xs 0).2.arr ≠ z := by
      rcases hz with hz | ⟨y, hy, hz⟩
      · have := hx.1; rw [hz]; exact Nat.ne_of_lt this
      · rw [hz]; exact (hun (.url p) y hy).symm
    have hr2 := Heap.read_grow gz _ hx hne
    have d2 := addURL_does d1.inv p (s.heap.alloc xs 0).2 e (Heap.valid_grow gz _ hx) (fun hn => by
      have := d1.some; simp only [AState.at, hn] at this; cases this)
    rw [d1.val, hr2, show Heap.read (AState.heap { s with heap := (s.heap.alloc xs 0).1 }) (s.heap.alloc xs 0).2 = xs from hr,
      List.append_assoc] at d2
    exact d1.trans d2

/-- `any` with a slice of the caller, for a pattern that need not own its array: something is stored. -/
theorem any_does {P : String → Bool} {s : AState} (hi : AInv P s) (p : String) (v e : Nat) (hp : P p = false) :
    s.step (.any p v e) = s ∨ ∃ w, Does P s (s.step (.any p v e)) (.url p) w := by
  simp only [AState.step]
  cases h : s.vars v with
  | none => exact .inl rfl
  | some x =>
    dsimp only
    have hx := hi.valid (.var v) x h
    have d1 := addURL_does hi p x e hx (fun _ => .inr ⟨hp, v, x, h, rfl⟩)
    unfold AState.any
    split
    · exact .inl rfl
    · split
      · exact .inr ⟨_, d1⟩
      · obtain ⟨z, gz, _⟩ := addURL_grow hi p x e
        have d2 := addURL_does d1.inv p x e (Heap.valid_grow gz _ hx) (fun hn => by
          have := d1.some; simp only [AState.at, hn] at this; cases this)
        exact .inr ⟨_, d1.trans d2⟩

/-- Any operation, for patterns that get no slice of the caller. -/
structure Steps (P : String → Bool) (s s' : AState) (op : AOp) : Prop where
  inv : AInv P s'
  global : s'.val .global = s.val .global ++ toGlobal s op
  self : ∀ id, s.self id ≠ none → s'.val (.self id) = s.val (.self id) ∧ s'.self id ≠ none
  handler : ∀ id, s.handler id ≠ none → s'.handler id = s.handler id
  url : ∀ p, P p = true → s'.val (.url p) = s.val (.url p) ++ toURL p s op

theorem step_steps {P : String → Bool} {s : AState} (hi : AInv P s) (op : AOp) (ho : ∀ p, P p = true → passesSlice p op = false) :
    Steps P s (s.step op) op := by
  have quiet : ∀ op, isCall op = false → Steps P s (s.step op) op := by
    intro op hc
    have q := step_user hi op hc
    refine ⟨q.inv, ?_, fun id h => ⟨q.keeps (.self id) rfl, ?_⟩, fun id h => by rw [q.handler], fun p hp => ?_⟩
    · rw [q.keeps .global rfl]; cases op <;> first | (cases hc; done) | simp [toGlobal]
    · have := q.others (.self id) (by simp); simp only [AState.at] at this; rwa [this]
    · rw [q.keeps (.url p) hp]; cases op <;> first | (cases hc; done) | simp [toURL]
  cases op with
  | useGlobal v e =>
    have d := step_global hi v e
    refine ⟨d.inv, d.val, fun id h => ⟨d.keeps (.self id) (by simp) rfl, ?_⟩, fun id h => by rw [d.handler], fun p hp => ?_⟩
    · have := d.others (.self id) (by simp); simp only [AState.at] at this; rwa [this]
    · rw [d.keeps (.url p) (by simp) hp]; simp [toURL]
  | addHandler id v e =>
    cases h : s.vars v with
    | none =>
      simp only [AState.step, h]
      exact ⟨hi, by simp [toGlobal], fun _ h => ⟨rfl, h⟩, fun _ _ => rfl, fun _ _ => by simp [toURL]⟩
    | some x =>
      simp only [AState.step, h]
      have a := addHandler_adds hi id (s.heap.read x) e
      refine ⟨a.inv, by rw [a.keeps .global (by simp) rfl]; simp [toGlobal], fun i hn => ?_, fun i hn => a.handler i ?_, fun p hp => ?_⟩
      · by_cases hii : i = id
        · subst hii
          exact ⟨(a.old hn).1, by rw [(a.old hn).2]; exact hn⟩
        · have := a.others (.self i) (by simpa using hii); simp only [AState.at] at this
          exact ⟨a.keeps (.self i) (by simpa using hii) rfl, by rwa [this]⟩
      · by_cases hii : i = id
        · subst hii; exact .inr hn
        · exact .inl hii
      · rw [a.keeps (.url p) (by simp) hp]; simp [toURL]
  | any q v e =>
    have hq : P q = false := by
      cases hq : P q
      · rfl
      · have := ho q hq; simp [passesSlice] at this
    have hpq : ∀ p, P p = true → q ≠ p := by rintro p hp rfl; rw [hq] at hp; cases hp
    rcases any_does hi q v e hq with h | ⟨w, d⟩
    · rw [h]
      exact ⟨hi, by simp [toGlobal], fun _ h => ⟨rfl, h⟩, fun _ _ => rfl, fun p hp => by simp [toURL, hpq p hp]⟩
    · refine ⟨d.inv, by rw [d.keeps .global (by simp) rfl]; simp [toGlobal], fun i hn => ⟨d.keeps (.self i) (by simp) rfl, ?_⟩,
        fun i hn => by rw [d.handler], fun p hp => ?_⟩
      · have := d.others (.self i) (by simp); simp only [AState.at] at this; rwa [this]
      · rw [d.keeps (.url p) (by simpa using (hpq p hp).symm) hp]; simp [toURL, hpq p hp]
  | anyNew q xs e =>
    by_cases hx : xs = []
    · subst hx
      have g : Grow s.heap.length s.heap (s.heap.alloc [] 0).1 := Heap.grow_alloc _ _ _ _
      have hat : ∀ b, AState.at { s with heap := (s.heap.alloc [] 0).1 } b = s.at b := by intro b; cases b <;> rfl
      have hval : ∀ b, AState.val { s with heap := (s.heap.alloc [] 0).1 } b = s.val b :=
        fun b => hi.keep g b (hat b) (hi.unused (Nat.le_refl _) b)
      have e1 : s.step (.anyNew q [] e) = { s with heap := (s.heap.alloc [] 0).1 } := rfl
      rw [e1]
      exact ⟨hi.heap g hat, by rw [hval]; simp [toGlobal], fun i hn => ⟨hval _, hn⟩, fun _ _ => rfl, fun p _ => by rw [hval]; simp [toURL, doubled]⟩
    · have d := anyNew_does hi q xs e hx
      refine ⟨d.inv, by rw [d.keeps .global (by simp) rfl]; simp [toGlobal], fun i hn => ⟨d.keeps (.self i) (by simp) rfl, ?_⟩,
        fun i hn => by rw [d.handler], fun p hp => ?_⟩
      · have := d.others (.self i) (by simp); simp only [AState.at] at this; rwa [this]
      · by_cases hqp : q = p
        · subst hqp; simp [toURL, d.val]
        · rw [d.keeps (.url p) (by simpa using Ne.symm hqp) hp]; simp [toURL, hqp]
  | _ => exact quiet _ rfl

theorem run_append (s : AState) (a b : List AOp) : s.run (a ++ b) = (s.run a).run b := by simp [AState.run]

theorem run_inv {P : String → Bool} (ops : List AOp) : ∀ s, AInv P s → (∀ op ∈ ops, ∀ p, P p = true → passesSlice p op = false) →
    AInv P (s.run ops) := by
  induction ops with
  | nil => intro s hi _; exact hi
  | cons op ops ih =>
    intro s hi ho
    exact ih _ (step_steps hi op (ho op (by simp))).inv fun o h => ho o (by simp [h])

/-- Nothing is asked of the patterns. -/
def noURL : String → Bool := fun _ => false

theorem noURL_ok (op : AOp) : ∀ p, noURL p = true → passesSlice p op = false := by
  intro p h; cases h

theorem reach_inv (ops : List AOp) : AInv noURL (AState.init.run ops) := run_inv ops _ (AInv.init _) fun op _ => noURL_ok op

theorem run_global (ops : List AOp) : ∀ s, AInv noURL s → (s.run ops).val .global = s.val .global ++ givenGlobal s ops := by
  induction ops with
  | nil => intro s _; simp [AState.run, givenGlobal]
  | cons op ops ih =>
    intro s hi
    have st := step_steps hi op (noURL_ok op)
    have := ih _ st.inv
    rw [st.global, List.append_assoc] at this
    exact this

theorem run_self (ops : List AOp) : ∀ s, AInv noURL s → ∀ id, s.self id ≠ none → (s.run ops).val (.self id) = s.val (.self id) := by
  induction ops with
  | nil => intro s _ id _; rfl
  | cons op ops ih =>
    intro s hi id hn
    have st := step_steps hi op (noURL_ok op)
    exact (ih _ st.inv id (st.self id hn).2).trans (st.self id hn).1

theorem run_handler (ops : List AOp) : ∀ s, AInv noURL s → ∀ id, s.handler id ≠ none → (s.run ops).handler id = s.handler id := by
  induction ops with
  | nil => intro s _ id _; rfl
  | cons op ops ih =>
    intro s hi id hn
    have st := step_steps hi op (noURL_ok op)
    exact (ih _ st.inv id (by rw [st.handler id hn]; exact hn)).trans (st.handler id hn)

theorem run_url (p : String) (ops : List AOp) : ∀ s, AInv (fun q => q = p) s → (∀ op ∈ ops, passesSlice p op = false) →
    (s.run ops).val (.url p) = s.val (.url p) ++ givenURL p s ops := by
  induction ops with
  | nil => intro s _ _; simp [AState.run, givenURL]
  | cons op ops ih =>
    intro s hi ho
    have st := step_steps hi op (fun q hq => by simp only [decide_eq_true_eq] at hq; rw [hq]; exact ho op (by simp))
    have := ih _ st.inv fun o h => ho o (by simp [h])
    rw [st.url p (by simp), List.append_assoc] at this
    exact this

/-- `UseGlobal` and `AddHandler` write to no array of the caller. -/
theorem step_vars {s : AState} (hi : AInv noURL s) (op : AOp)
    (ho : (∃ v e, op = .useGlobal v e) ∨ ∃ id v e, op = .addHandler id v e) : ∀ v, held (s.step op) v = held s v := by
  intro u
  show (s.step op).val (.var u) = s.val (.var u)
  rcases ho with ⟨v, e, rfl⟩ | ⟨id, v, e, rfl⟩
  · cases h : s.vars v with
    | none => simp only [AState.step, h]
    | some x =>
      simp only [AState.step, h]
      exact hi.keep (Heap.grow_append s.heap s.global (s.heap.read x) e (hi.valid .global _ rfl)) (.var u) rfl
        fun y hy => (hi.alone .global (.var u) _ y (by simp) rfl rfl hy).symm
  · cases h : s.vars v with
    | none => simp only [AState.step, h]
    | some x =>
      simp only [AState.step, h]
      have key : ∀ xs, (s.addSelf id xs e).val (.var u) = s.val (.var u) := fun xs =>
        hi.keep (addSelf_growth s id xs e) (.var u) rfl (hi.unused (Nat.le_refl _) _)
      unfold AState.addHandler
      cases (s.heap.read x).getLast? with
      | none => rfl
      | some f =>
        dsimp only
        by_cases h1 : (s.heap.read x).dropLast ≠ []
        · by_cases h2 : s.self id ≠ none
          · rw [if_pos ⟨h1, h2⟩]
          · rw [if_neg (fun h => h2 h.2), if_pos h1]
            split
            · exact key _
            · exact key _
        · rw [if_neg (fun h => h1 h.1), if_neg h1]
          split <;> rfl

end Tcpx
