import Verif.Spec.Register
/-!
# Lemmas about goroutines that register and dispatch: locking
-/
namespace Tcpx
namespace Register
open Spec

/-- Everything but the steps of the mutex and the end of the call. -/
def Act.plain : Act → Bool
  | .lock | .unlock | .rlock | .runlock | .ret _ => false
  | _ => true

/-- Steps after which the code may go on in another way than by a panic. -/
def Act.branches : Act → Bool
  | .useLook _ _ | .lookId _ | .bypass _ | .lookUrl _ | .next | .scanLen | .scan _ _ | .urlAllow _ _ => true
  | _ => false

/-- How a goroutine holds the mutex. -/
inductive Hold where
  | no | w | r
deriving DecidableEq

/-- Code that locks and unlocks in turn, and whose other steps are allowed by `A`. -/
def Ok (A : Hold → Act → Prop) : Hold → List Act → Prop
  | _, [] => False
  | h, a :: r =>
    match a with
    | .lock => h = .no ∧ Ok A .w r
    | .unlock => h = .w ∧ Ok A .no r
    | .rlock => h = .no ∧ Ok A .r r
    | .runlock => h = .r ∧ Ok A .no r
    | .ret _ => h = .no
    | a => A h a ∧ (h = .w → r.head? = some .unlock) ∧ (h = .r → r.head? = some .runlock) ∧ Ok A h r

/-- What `A` must allow so that the code a step goes on with is allowed. -/
structure Closed (A : Hold → Act → Prop) : Prop where
  branch : ∀ h a, A h a → a.branches = true → h = .no
  use : ∀ h k f, A h (.useLook k f) → A .no .index ∧ A .no .callUse ∧ A .no (.usePut k) ∧ A .w .addAnchor
  scan : ∀ h n, A h .scanLen → A h (.scan n 0)
  scan' : ∀ h n j, A h (.scan n j) → A h (.scan n (j + 1))
  url : ∀ h p hs, A h (.urlAllow p hs) → A h (.urlPut p hs)

theorem ok_plain {A : Hold → Act → Prop} {h : Hold} {a : Act} {r : List Act} (hp : a.plain = true) :
    Ok A h (a :: r) ↔ A h a ∧ (h = .w → r.head? = some .unlock) ∧ (h = .r → r.head? = some .runlock) ∧ Ok A h r := by
  cases a <;> first | (exact absurd hp (by decide)) | (simp [Act.plain] at hp; done) | (simp only [Ok])

theorem ok_unwind {A : Hold → Act → Prop} {h : Hold} {r : List Act} (hw : h = .w → r.head? = some .unlock)
    (hr : h = .r → r.head? = some .runlock) (ho : Ok A h r) : Ok A h (unwind r) := by
  cases r with
  | nil => simp only [Ok] at ho
  | cons a r =>
    unfold unwind
    split
    · next e => cases e; simp only [Ok] at ho ⊢; simp [ho.1]
    · next e => cases e; simp only [Ok] at ho ⊢; simp [ho.1]
    · next h1 h2 =>
      cases h with
      | no => simp only [Ok]
      | w => exact absurd (by simpa using hw rfl) (fun e => h1 r (by rw [e]))
      | r => exact absurd (by simpa using hr rfl) (fun e => h2 r (by rw [e]))

theorem exec_ok {A : Hold → Act → Prop} (hc : Closed A) {h : Hold} {a : Act} {r : List Act} (hp : a.plain = true)
    (ho : Ok A h (a :: r)) (s : Srv) (l : Loc) : Ok A h (a.exec s l r).2.2 := by
  rw [ok_plain hp] at ho
  obtain ⟨ha, hw, hr, ho⟩ := ho
  have hu := ok_unwind hw hr ho
  cases a <;> simp only [Act.plain, Bool.false_eq_true] at hp <;> simp only [Act.exec] <;> try exact ho
  case allow => split <;> assumption
  case selfMw => split <;> assumption
  case handle => split <;> assumption
  case idAnchor => split <;> assumption
  case callUse => split <;> assumption
  case usePut => split <;> assumption
  case addAnchor => split <;> assumption
  case unLook => split <;> assumption
  case callUnUse => split <;> assumption
  case replAnchor =>
    split
    · assumption
    · dsimp only; split <;> assumption
  case urlAnchor => split <;> assumption
  case prep => split <;> assumption
  case readIdx => split <;> assumption
  case readUrlIdx => split <;> assumption
  case useLook k f =>
    obtain ⟨h1, h2, h3, h4⟩ := hc.use _ _ _ ha
    obtain rfl := hc.branch _ _ ha rfl
    split <;> simp [Ok, locked, h1, h2, h3, h4]
  case urlAllow p hs =>
    obtain rfl := hc.branch _ _ ha rfl
    have := hc.url _ _ _ ha
    split
    · simp [Ok, this, ho]
    · exact ho
  case lookId =>
    obtain rfl := hc.branch _ _ ha rfl
    split
    · simp [Ok]
    · assumption
  case lookUrl =>
    obtain rfl := hc.branch _ _ ha rfl
    split
    · simp [Ok]
    · assumption
  case bypass =>
    obtain rfl := hc.branch _ _ ha rfl
    split
    · dsimp only; split
      · simp [Ok]
      · exact hu
    · assumption
  case next =>
    obtain rfl := hc.branch _ _ ha rfl
    simp [Ok]
  case scanLen =>
    have hs := hc.scan _ s.mux.anchors.length ha
    obtain rfl := hc.branch _ _ ha rfl
    simp [Ok, hs, ho]
  case scan n j =>
    have hs := hc.scan' _ _ _ ha
    obtain rfl := hc.branch _ _ ha rfl
    split
    · split
      · exact hu
      · split
        · exact hu
        · simp [Ok, hs, ho]
    · exact ho

/-! ## Single steps -/

theorem step_plain (y : Sys) (i : Nat) (g : Gor) (c : Call) (a : Act) (r : List Act) (hg : y.gors[i]? = some g)
    (hcur : g.cur = some (c, a :: r)) (hp : a.plain = true) :
    y.step i = { y with srv := (a.exec y.srv g.loc r).1,
                        gors := y.gors.set i { g with cur := some (c, (a.exec y.srv g.loc r).2.2), loc := (a.exec y.srv g.loc r).2.1 } } := by
  unfold Sys.step
  cases a <;> simp only [Act.plain, Bool.false_eq_true] at hp <;> simp only [hg, hcur]

/-- The ways a step of goroutine `i` can go. -/
inductive Went (y : Sys) (i : Nat) : Sys → Prop
  | stay : Went y i y
  | begin (g : Gor) (c : Call) (cs : List Call) (hg : y.gors[i]? = some g) (hcur : g.cur = none) (ht : g.todo = c :: cs) :
      Went y i { y with gors := y.gors.set i { g with cur := some (c, c.code), loc := {}, todo := cs } }
  | lock (g : Gor) (c : Call) (r : List Act) (hg : y.gors[i]? = some g) (hcur : g.cur = some (c, .lock :: r))
      (hw : y.writer = none) (hr : y.readers = []) :
      Went y i { y with writer := some i, gors := y.gors.set i { g with cur := some (c, r) } }
  | unlock (g : Gor) (c : Call) (r : List Act) (hg : y.gors[i]? = some g) (hcur : g.cur = some (c, .unlock :: r))
      (hw : y.writer = some i) : Went y i { y with writer := none, gors := y.gors.set i { g with cur := some (c, r) } }
  | rlock (g : Gor) (c : Call) (r : List Act) (hg : y.gors[i]? = some g) (hcur : g.cur = some (c, .rlock :: r))
      (hw : y.writer = none) : Went y i { y with readers := i :: y.readers, gors := y.gors.set i { g with cur := some (c, r) } }
  | runlock (g : Gor) (c : Call) (r : List Act) (hg : y.gors[i]? = some g) (hcur : g.cur = some (c, .runlock :: r))
      (hw : i ∈ y.readers) :
      Went y i { y with readers := y.readers.erase i, gors := y.gors.set i { g with cur := some (c, r) } }
  | ret (g : Gor) (c : Call) (o : Outcome) (r : List Act) (hg : y.gors[i]? = some g) (hcur : g.cur = some (c, .ret o :: r)) :
      Went y i { y with gors := y.gors.set i { g with cur := none, log := (c, o) :: g.log } }
  | plain (g : Gor) (c : Call) (a : Act) (r : List Act) (hg : y.gors[i]? = some g) (hcur : g.cur = some (c, a :: r))
      (hp : a.plain = true) :
      Went y i { y with srv := (a.exec y.srv g.loc r).1,
                        gors := y.gors.set i { g with cur := some (c, (a.exec y.srv g.loc r).2.2), loc := (a.exec y.srv g.loc r).2.1 } }

theorem went (y : Sys) (i : Nat) : Went y i (y.step i) := by
  cases hg : y.gors[i]? with
  | none => simp only [Sys.step, hg]; exact .stay
  | some g =>
    cases hcur : g.cur with
    | none =>
      cases ht : g.todo with
      | nil => simp only [Sys.step, hg, hcur, ht]; exact .stay
      | cons c cs => simp only [Sys.step, hg, hcur, ht]; exact .begin g c cs hg hcur ht
    | some p =>
      obtain ⟨c, l⟩ := p
      cases l with
      | nil => simp only [Sys.step, hg, hcur]; exact .stay
      | cons a r =>
        cases hp : a.plain with
        | true => rw [step_plain y i g c a r hg hcur hp]; exact .plain g c a r hg hcur hp
        | false =>
          cases a <;> simp only [Act.plain, Bool.true_eq_false] at hp <;> simp only [Sys.step, hg, hcur]
          · split
            · next h => exact .lock g c r hg hcur h.1 h.2
            · exact .stay
          · split
            · next h => exact .unlock g c r hg hcur h
            · exact .stay
          · split
            · next h => exact .rlock g c r hg hcur h
            · exact .stay
          · split
            · next h => exact .runlock g c r hg hcur h
            · exact .stay
          · exact .ret g c _ r hg hcur

/-! ## The discipline of the mutex -/

/-- How goroutine `i` holds the mutex. -/
def holdOf (y : Sys) (i : Nat) : Hold := if y.writer = some i then .w else if i ∈ y.readers then .r else .no

/-- The mutex is held by those whose code says so. -/
structure LInv (A : Hold → Act → Prop) (y : Sys) : Prop where
  excl : y.writer ≠ none → y.readers = []
  nodup : y.readers.Nodup
  held : ∀ i, holdOf y i ≠ .no → i < y.gors.length
  gor : ∀ i g, y.gors[i]? = some g →
    (g.cur = none → holdOf y i = .no) ∧ (∀ c r, g.cur = some (c, r) → Ok A (holdOf y i) r) ∧ ∀ c ∈ g.todo, Ok A .no c.code

theorem get_set {α : Type} (l : List α) (i j : Nat) (x y : α) (h : (l.set i x)[j]? = some y) :
    (j = i ∧ y = x ∧ i < l.length) ∨ (j ≠ i ∧ l[j]? = some y) := by
  rw [List.getElem?_set] at h
  by_cases e : i = j
  · subst e
    rw [if_pos rfl] at h
    split at h
    · next hl => cases h; exact .inl ⟨rfl, rfl, hl⟩
    · cases h
  · rw [if_neg e] at h
    exact .inr ⟨Ne.symm e, h⟩

theorem linv_step {A : Hold → Act → Prop} (hc : Closed A) {y : Sys} (h : LInv A y) (i : Nat) : LInv A (y.step i) := by
  have hw := went y i
  generalize y.step i = z at hw
  cases hw with
  | stay => exact h
  | begin g c cs hg hcur ht =>
    obtain ⟨h1, _, h3⟩ := h.gor i g hg
    rw [ht] at h3
    refine ⟨h.excl, h.nodup, fun j hj => by simpa using h.held j hj, ?_⟩
    intro j g' hg'
    rcases get_set _ _ _ _ _ hg' with ⟨rfl, rfl, _⟩ | ⟨hne, hg''⟩
    · refine ⟨by simp, ?_, fun c' hc' => h3 c' (by simp [hc'])⟩
      intro c' r e
      simp only [Option.some.injEq, Prod.mk.injEq] at e
      obtain ⟨rfl, rfl⟩ := e
      show Ok A (holdOf y j) _
      rw [h1 hcur]; exact h3 _ (by simp)
    · exact h.gor j g' hg''
  | lock g c r hg hcur hwr hrd =>
    obtain ⟨_, h2, h3⟩ := h.gor i g hg
    have hok := h2 _ _ hcur
    have hi : i < y.gors.length := (List.getElem?_eq_some_iff.1 hg).1
    have hno : holdOf y i = .no := by simp [holdOf, hwr, hrd]
    rw [hno] at hok
    simp only [Ok, true_and] at hok
    refine ⟨fun _ => hrd, h.nodup, ?_, ?_⟩
    · intro j hj
      by_cases e : j = i
      · subst e; simpa using hi
      · refine absurd ?_ hj
        simp [holdOf, hrd, Ne.symm e]
    · intro j g' hg'
      rcases get_set _ _ _ _ _ hg' with ⟨rfl, rfl, _⟩ | ⟨hne, hg''⟩
      · refine ⟨by simp, ?_, h3⟩
        intro c' r' e
        simp only [Option.some.injEq, Prod.mk.injEq] at e
        obtain ⟨rfl, rfl⟩ := e
        simpa [holdOf] using hok
      · have : holdOf { y with writer := some i, gors := y.gors.set i { g with cur := some (c, r) } } j = holdOf y j := by
          simp [holdOf, hwr, hrd, Ne.symm hne]
        rw [this]; exact h.gor j g' hg''
  | unlock g c r hg hcur hwr =>
    obtain ⟨_, h2, h3⟩ := h.gor i g hg
    have hok := h2 _ _ hcur
    have hrd := h.excl (by rw [hwr]; simp)
    have hno : holdOf y i = .w := by simp [holdOf, hwr]
    rw [hno] at hok
    simp only [Ok, true_and] at hok
    refine ⟨fun e => absurd rfl e, h.nodup, ?_, ?_⟩
    · intro j hj
      refine absurd ?_ hj
      simp [holdOf, hrd]
    · intro j g' hg'
      have hn : ∀ j, holdOf { y with writer := none, gors := y.gors.set i { g with cur := some (c, r) } } j = .no := by
        intro j; simp [holdOf, hrd]
      rw [hn]
      rcases get_set _ _ _ _ _ hg' with ⟨rfl, rfl, _⟩ | ⟨hne, hg''⟩
      · refine ⟨by simp, ?_, h3⟩
        intro c' r' e
        simp only [Option.some.injEq, Prod.mk.injEq] at e
        obtain ⟨rfl, rfl⟩ := e
        exact hok
      · have : holdOf y j = .no := by simp [holdOf, hrd, hwr, Ne.symm hne]
        have h' := h.gor j g' hg''
        rw [this] at h'; exact h'
  | rlock g c r hg hcur hwr =>
    obtain ⟨_, h2, h3⟩ := h.gor i g hg
    have hok := h2 _ _ hcur
    have hi : i < y.gors.length := (List.getElem?_eq_some_iff.1 hg).1
    have hno : holdOf y i = .no := by
      simp only [Ok] at hok; exact hok.1
    have hni : i ∉ y.readers := by
      intro hm; simp [holdOf, hwr, hm] at hno
    rw [hno] at hok
    simp only [Ok, true_and] at hok
    have hn : ∀ j, j ≠ i → holdOf { y with readers := i :: y.readers, gors := y.gors.set i { g with cur := some (c, r) } } j = holdOf y j := by
      intro j hj; simp [holdOf, hwr, hj]
    refine ⟨fun e => absurd hwr e, List.nodup_cons.2 ⟨hni, h.nodup⟩, ?_, ?_⟩
    · intro j hj
      by_cases e : j = i
      · subst e; simpa using hi
      · rw [hn j e] at hj; simpa using h.held j hj
    · intro j g' hg'
      rcases get_set _ _ _ _ _ hg' with ⟨rfl, rfl, _⟩ | ⟨hne, hg''⟩
      · refine ⟨by simp, ?_, h3⟩
        intro c' r' e
        simp only [Option.some.injEq, Prod.mk.injEq] at e
        obtain ⟨rfl, rfl⟩ := e
        simpa [holdOf, hwr] using hok
      · rw [hn j hne]; exact h.gor j g' hg''
  | runlock g c r hg hcur hm =>
    obtain ⟨_, h2, h3⟩ := h.gor i g hg
    have hok := h2 _ _ hcur
    have hwr : y.writer = none := by
      cases e : y.writer with
      | none => rfl
      | some k => have := h.excl (by rw [e]; simp); rw [this] at hm; cases hm
    have hno : holdOf y i = .r := by simp [holdOf, hwr, hm]
    rw [hno] at hok
    simp only [Ok, true_and] at hok
    have hn : ∀ j, j ≠ i → holdOf { y with readers := y.readers.erase i, gors := y.gors.set i { g with cur := some (c, r) } } j = holdOf y j := by
      intro j hj; simp [holdOf, hwr, List.mem_erase_of_ne hj]
    have hni : holdOf { y with readers := y.readers.erase i, gors := y.gors.set i { g with cur := some (c, r) } } i = .no := by
      have : i ∉ y.readers.erase i := h.nodup.not_mem_erase
      simp [holdOf, hwr, this]
    refine ⟨fun e => absurd hwr e, h.nodup.erase i, ?_, ?_⟩
    · intro j hj
      by_cases e : j = i
      · subst e; exact absurd hni hj
      · rw [hn j e] at hj; simpa using h.held j hj
    · intro j g' hg'
      rcases get_set _ _ _ _ _ hg' with ⟨rfl, rfl, _⟩ | ⟨hne, hg''⟩
      · rw [hni]
        refine ⟨by simp, ?_, h3⟩
        intro c' r' e
        simp only [Option.some.injEq, Prod.mk.injEq] at e
        obtain ⟨rfl, rfl⟩ := e
        exact hok
      · rw [hn j hne]; exact h.gor j g' hg''
  | ret g c o r hg hcur =>
    obtain ⟨_, h2, h3⟩ := h.gor i g hg
    have hok := h2 _ _ hcur
    simp only [Ok] at hok
    refine ⟨h.excl, h.nodup, fun j hj => by simpa using h.held j hj, ?_⟩
    intro j g' hg'
    rcases get_set _ _ _ _ _ hg' with ⟨rfl, rfl, _⟩ | ⟨hne, hg''⟩
    · exact ⟨fun _ => hok, by simp, h3⟩
    · exact h.gor j g' hg''
  | plain g c a r hg hcur hp =>
    obtain ⟨_, h2, h3⟩ := h.gor i g hg
    have hok := h2 _ _ hcur
    have := exec_ok hc hp hok y.srv g.loc
    refine ⟨h.excl, h.nodup, fun j hj => by simpa using h.held j hj, ?_⟩
    intro j g' hg'
    rcases get_set _ _ _ _ _ hg' with ⟨rfl, rfl, _⟩ | ⟨hne, hg''⟩
    · refine ⟨by simp, ?_, h3⟩
      intro c' r' e
      simp only [Option.some.injEq, Prod.mk.injEq] at e
      obtain ⟨rfl, rfl⟩ := e
      exact this
    · exact h.gor j g' hg''

theorem linv_run {A : Hold → Act → Prop} (hc : Closed A) {y : Sys} (h : LInv A y) (sched : List Nat) : LInv A (y.run sched) := by
  induction sched generalizing y with
  | nil => exact h
  | cons i t ih => exact ih (linv_step hc h i)

theorem linv_start {A : Hold → Act → Prop} (s : Srv) (progs : List (List Call)) (h : ∀ p ∈ progs, ∀ c ∈ p, Ok A .no c.code) :
    LInv A (start s progs) := by
  refine ⟨fun e => absurd rfl e, List.nodup_nil, fun i hi => absurd rfl hi, ?_⟩
  intro i g hg
  have hm := List.mem_of_getElem? hg
  simp only [start, List.mem_map] at hm
  obtain ⟨p, hp, rfl⟩ := hm
  exact ⟨fun _ => rfl, (by intro c r e; cases e), fun c hc => h p hp c hc⟩

/-! ## No clash -/

/-- Memory in `G` is accessed under the mutex, for writing if written; other memory is only read. -/
def guardedBy (G : Fld → Bool) (h : Hold) (a : Act) : Prop :=
  ∀ x w, (x, w) ∈ a.access → if G x then h = .w ∨ (h = .r ∧ w = false) else w = false

theorem no_clash {A : Hold → Act → Prop} {y : Sys} (h : LInv A y) (G : Fld → Bool) (hg : ∀ k a, A k a → guardedBy G k a) : ¬ RegClash y := by
  rintro ⟨i, j, a, b, x, w, hij, ha, hb, hxa, hxb⟩
  have key : ∀ i a x w, nextStep y i = some a → (x, w) ∈ a.access → A (holdOf y i) a := by
    intro i a x w hn hx
    simp only [nextStep, Option.bind_eq_some_iff] at hn
    obtain ⟨p, ⟨g, hgi, hcur⟩, hh⟩ := hn
    obtain ⟨c, r⟩ := p
    cases r with
    | nil => cases hh
    | cons a' r =>
      simp only [List.head?_cons, Option.some.injEq] at hh
      subst hh
      have hok := (h.gor i g hgi).2.1 _ _ hcur
      have hp : a'.plain = true := by cases a' <;> first | rfl | cases hx
      exact ((ok_plain hp).1 hok).1
  have h1 := hg _ _ (key i a x true ha hxa) x true hxa
  have h2 := hg _ _ (key j b x w hb hxb) x w hxb
  have hG : G x = true := by
    cases e : G x with
    | true => rfl
    | false => rw [if_neg (by rw [e]; decide)] at h1; cases h1
  rw [if_pos hG] at h1 h2
  have hi : y.writer = some i := by
    rcases h1 with h1 | ⟨_, h1⟩
    · unfold holdOf at h1
      split at h1
      · assumption
      · split at h1 <;> cases h1
    · cases h1
  have hr := h.excl (by rw [hi]; simp)
  have hj : holdOf y j = .no := by simp [holdOf, hi, hr, hij]
  rcases h2 with h2 | ⟨h2, _⟩ <;> rw [hj] at h2 <;> cases h2

/-! ## Never stuck -/

/-- All steps, as the calls make them. -/
def anyStep (h : Hold) (a : Act) : Prop := a.branches = true → h = .no

theorem anyStep_closed : Closed anyStep := by
  constructor
  · intro h a ha hb; exact ha hb
  · intro h k f _; exact ⟨fun _ => rfl, fun _ => rfl, fun _ => rfl, fun e => by cases e⟩
  · intro h n ha _; exact ha rfl
  · intro h n j ha _; exact ha rfl
  · intro h p hs ha _; exact ha rfl

theorem code_anyStep (c : Call) : Ok anyStep .no c.code := by
  have hadd : ∀ id hs, Ok anyStep .no (addHandlerCode id hs) := by
    intro id hs
    unfold addHandlerCode
    split
    · simp [Ok]
    · split <;> simp [Ok, locked, anyStep, Act.branches]
  cases c with
  | addHandler id hs => exact hadd id hs
  | useGlobal ms => simp [Call.code, Ok, locked, anyStep, Act.branches]
  | use k f => simp [Call.code, Ok, anyStep]
  | unUse k => simp [Call.code, Ok, locked, anyStep, Act.branches]
  | any p hs =>
    simp only [Call.code, anyCode]
    split
    · simp [Ok]
    · split <;> simp [Ok, locked, anyStep, Act.branches]
  | rewriteHeartBeat id f =>
    have := hadd id [f]
    simp [Call.code, Ok, anyStep, Act.branches] at this ⊢
    exact this
  | listen => simp [Call.code, Ok, anyStep, Act.branches]
  | byId id => simp [Call.code, Ok, rlocked, anyStep, Act.branches]
  | byUrl p => simp [Call.code, Ok, rlocked, anyStep, Act.branches]

end Register
end Tcpx
