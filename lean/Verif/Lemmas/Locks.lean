import Verif.Spec.Locks
/-!
# Helper lemmas for `Props/Locks`: the fine-grained system is simulated by `Model/Pool`
-/
namespace Tcpx
open Spec

/-- The mutex of a pool is held across several actions only around them, and given back once. -/
def Disc {α : Type} (held : Option Nat) : PProg α → Prop
  | .ret _ => True
  | .panic => True
  | .act a k =>
    match a with
    | .hold p => held = none ∧ ∀ r, Disc (some p) (k r)
    | .release p => held = some p ∧ ∀ r, Disc none (k r)
    | .keys p => held = some p ∧ ∀ r, Disc held (k r)
    | .lookHeld p _ => held = some p ∧ ∀ r, Disc held (k r)
    | .delHeld p _ => held = some p ∧ ∀ r, Disc held (k r)
    | _ => ∀ r, Disc held (k r)

/-- A goroutine in the middle of an action. -/
inductive Ph where
  | top
  | got (a : PAct)      -- has its mutex
  | inn (a : PAct)      -- in the access
  | out (l : Lk) (w : Bool)   -- about to unlock
deriving DecidableEq

def Ph.lock : Ph → Option (Lk × Bool)
  | .top => none
  | .got a => a.guarded
  | .inn a => a.guarded
  | .out l w => some (l, w)

/-- What follows an access. -/
def afterAccess (a : PAct) (k : PVal → FProg) : PVal → FProg := fun r =>
  match a.guarded with
  | some (l, true) => .act (.unlock l) fun _ => k r
  | some (l, false) => .act (.runlock l) fun _ => k r
  | none => k r

inductive PRel (held : Option Nat) : FProg → PProg Unit → Ph → Prop where
  | top (p) : Disc held p → PRel held p.fine p .top
  | got (a k) : Disc held (.act a k) → a.guarded.isSome →
      PRel held (.act (.enter a) fun _ => .act (.leave a) (afterAccess a fun r => (k r).fine)) (.act a k) (.got a)
  | inn (a k) : Disc held (.act a k) → a.access.isSome → PRel held (.act (.leave a) (afterAccess a fun r => (k r).fine)) (.act a k) (.inn a)
  | outW (l p) : Disc held p → PRel held (.act (.unlock l) fun _ => p.fine) p (.out l true)
  | outR (l p) : Disc held p → PRel held (.act (.runlock l) fun _ => p.fine) p (.out l false)

structure LInv (y : FSys) (z : PSys) (ph : Nat → Ph) (held : Nat → Option Nat) : Prop where
  prog : ∀ i, PRel (held i) (y.threads i) (z.threads i) (ph i)
  writer : ∀ l t, (y.locks l).writer = some t ↔ (ph t).lock = some (l, true) ∨ ∃ p, l = .pool p ∧ held t = some p
  reader : ∀ l t, t ∈ (y.locks l).readers ↔ (ph t).lock = some (l, false)
  nodup : ∀ l, (y.locks l).readers.Nodup
  excl : ∀ l t, (y.locks l).writer = some t → (y.locks l).readers = []
  apart : ∀ t p w, (ph t).lock = some (.pool p, w) → held t ≠ some p
  holder : ∀ p t, (z.world.pool p).holder = some t ↔ held t = some p
  inside : ∀ i a, y.inside i = some a ↔ ph i = .inn a
  conn : z.world.conn = y.world.conn
  clients : ∀ p, (z.world.pool p).clients = (y.world.pool p).clients
  trace : y.trace = z.trace.filter fun e => !isLocking e.action

/-! ## Programs keep the discipline -/

/-- Actions that have nothing to do with holding a pool's mutex across several actions. -/
def PAct.plain : PAct → Bool
  | .hold _ => false
  | .release _ => false
  | .keys _ => false
  | .lookHeld _ _ => false
  | .delHeld _ _ => false
  | _ => true

def PProg.Plain {α : Type} : PProg α → Prop
  | .ret _ => True
  | .panic => True
  | .act a k => a.plain = true ∧ ∀ r, (k r).Plain

theorem plain_bind {α β : Type} {p : PProg α} {f : α → PProg β} (hp : p.Plain) (hf : ∀ a, (f a).Plain) : (p.bind f).Plain := by
  induction p with
  | ret a => exact hf a
  | panic => trivial
  | act a k ih => exact ⟨hp.1, fun r => ih r (hp.2 r)⟩

theorem disc_plain {α : Type} {h : Option Nat} {a : PAct} {k : PVal → PProg α} (ha : a.plain = true) :
    Disc h (.act a k) ↔ ∀ r, Disc h (k r) := by
  cases a <;> first | (cases ha; done) | exact Iff.rfl

theorem disc_bind {α β : Type} {h : Option Nat} {p : PProg α} {f : α → PProg β} (hp : p.Plain) (hf : ∀ a, Disc h (f a)) :
    Disc h (p.bind f) := by
  induction p with
  | ret a => exact hf a
  | panic => trivial
  | act a k ih => exact (disc_plain hp.1).2 fun r => ih r (hp.2 r)

theorem plain_doUnit {a : PAct} (h : a.plain = true) : (doUnit a).Plain := ⟨h, fun _ => trivial⟩

theorem poolLook_plain (p : Nat) (u : String) : (poolLook p u).Plain := by
  refine ⟨rfl, fun r => ?_⟩
  cases r <;> trivial

theorem poolOffline_plain (p : Nat) (u : String) : (poolOffline p u).Plain :=
  plain_bind (poolLook_plain p u) fun o => by cases o <;> first | trivial | exact plain_doUnit rfl

theorem connName_plain (c : Nat) : (connName c).Plain := by
  refine ⟨rfl, fun r => ?_⟩
  cases r with
  | any v =>
    cases v with
    | none => trivial
    | some v => cases h : v.asString <;> simp only [h] <;> trivial
  | _ => trivial

theorem ctxOffline_plain (R : Nat → Option Nat) (c : Nat) : (ctxOffline R c).Plain := by
  unfold ctxOffline
  cases R c with
  | none => trivial
  | some p =>
    refine plain_bind (connName_plain c) fun o => ?_
    cases o with
    | none => trivial
    | some u => exact plain_bind (poolOffline_plain p u) fun _ => trivial

theorem ctxOnline_plain (R : Nat → Option Nat) (c : Nat) (u : String) : (ctxOnline R c u).Plain := by
  unfold ctxOnline
  split
  · trivial
  · refine plain_bind (plain_doUnit rfl) fun _ => ?_
    cases R c with
    | none => trivial
    | some p => exact plain_bind (plain_doUnit rfl) fun _ => trivial

theorem closeConn_plain (R : Nat → Option Nat) (c : Nat) : (closeConn R c).Plain := by
  unfold closeConn
  refine plain_bind (plain_doUnit rfl) fun _ => plain_bind ⟨rfl, fun _ => trivial⟩ fun _ => ?_
  split
  · exact plain_bind (ctxOffline_plain R c) fun _ => plain_doUnit rfl
  · exact plain_bind (p := pure ()) trivial fun _ => plain_doUnit rfl

theorem isOfflineNow_plain (c : Nat) : (isOfflineNow c).Plain := by
  refine ⟨rfl, fun r => ?_⟩
  cases r <;> trivial

theorem sendToUsername_plain (R : Nat → Option Nat) (c : Nat) (u : String) (f : Nat) : (sendToUsername R c u f).Plain := by
  unfold sendToUsername
  cases R c with
  | none => trivial
  | some p =>
    refine plain_bind (poolLook_plain p u) fun o => ?_
    cases o with
    | none => trivial
    | some x =>
      refine plain_bind (isOfflineNow_plain x) fun b => ?_
      cases b with
      | true => trivial
      | false =>
        refine plain_bind (p := doAct (.write x f)) ⟨rfl, fun _ => trivial⟩ fun r => ?_
        cases r <;> trivial

theorem body_plain (R : Nat → Option Nat) (c : PCall) : (c.body R).Plain := by
  cases c with
  | poolOnline p u c => exact plain_bind (plain_doUnit rfl) fun _ => trivial
  | poolGet p u => exact plain_bind (poolLook_plain p u) fun _ => trivial
  | poolDelete p u => exact plain_bind (plain_doUnit rfl) fun _ => trivial
  | poolOffline p u => exact plain_bind (poolOffline_plain p u) fun _ => trivial
  | online c u => exact plain_bind (ctxOnline_plain R c u) fun _ => trivial
  | offline c => exact plain_bind (ctxOffline_plain R c) fun _ => trivial
  | close c => exact plain_bind (closeConn_plain R c) fun _ => trivial
  | sendTo c u f => exact plain_bind (sendToUsername_plain R c u f) fun _ => trivial
  | isOffline c => exact plain_bind (isOfflineNow_plain c) fun _ => trivial
  | setUsername c u => exact plain_bind (plain_doUnit rfl) fun _ => trivial
  | setReq c v => exact plain_bind (plain_doUnit rfl) fun _ => trivial

theorem call_plain (R : Nat → Option Nat) (c : PCall) : (c.run R).Plain :=
  plain_bind (plain_doUnit rfl) fun _ => plain_bind (body_plain R c) fun _ => plain_bind (plain_doUnit rfl) fun _ => trivial

theorem code_plain (R : Nat → Option Nat) (c : PCode) : (c.run R).Plain := by
  induction c with
  | done => trivial
  | call c k ih => exact plain_bind (call_plain R c) fun r => ih r

theorem sweepGo_disc (R : Nat → Option Nat) (p : Nat) (f : Unit → PProg Unit) (hf : ∀ u, Disc (some p) (f u)) (ks : List String) :
    Disc (some p) ((sweep.go R p ks).bind f) := by
  induction ks with
  | nil => exact hf ()
  | cons k ks ih =>
    refine ⟨rfl, fun r => ?_⟩
    cases r with
    | conn o =>
      cases o with
      | none => trivial
      | some c =>
        show Disc (some p) (((closeConn R c).bind fun _ => .act (.delHeld p k) fun _ => sweep.go R p ks).bind f)
        have : ∀ q : PProg Unit, q.Plain → Disc (some p) ((q.bind fun _ => .act (.delHeld p k) fun _ => sweep.go R p ks).bind f) := by
          intro q hq
          induction q with
          | ret a => exact ⟨rfl, fun _ => ih⟩
          | panic => trivial
          | act a k' ih' => exact (disc_plain hq.1).2 fun r => ih' r (hq.2 r)
        exact this _ (closeConn_plain R c)
    | _ => trivial

theorem job_disc (R : Nat → Option Nat) (j : Job) : Disc none (j.run R) := by
  cases j with
  | code c =>
    have : ∀ q : PProg Unit, q.Plain → Disc none q := by
      intro q hq
      induction q with
      | ret a => trivial
      | panic => trivial
      | act a k ih => exact (disc_plain hq.1).2 fun r => ih r (hq.2 r)
    exact this _ (code_plain R c)
  | sweep order p =>
    refine ⟨rfl, fun r => ⟨rfl, fun r => ?_⟩⟩
    cases r with
    | keys l => exact sweepGo_disc R p (fun _ => doUnit (.release p)) (fun _ => ⟨rfl, fun _ => trivial⟩) _
    | _ => trivial

/-! ## Actions and steps -/

theorem steps_guardW {a : PAct} {l : Lk} (h : a.guarded = some (l, true)) (k : PVal → FProg) :
    a.steps k = .act (.lock l) fun _ => .act (.enter a) fun _ => .act (.leave a) (afterAccess a k) := by
  cases a <;> first | (cases h; done) | (injection h with h; injection h with h1 h2; subst h1; first | rfl | cases h2)

theorem steps_guardR {a : PAct} {l : Lk} (h : a.guarded = some (l, false)) (k : PVal → FProg) :
    a.steps k = .act (.rlock l) fun _ => .act (.enter a) fun _ => .act (.leave a) (afterAccess a k) := by
  cases a <;> first | (cases h; done) | (injection h with h; injection h with h1 h2; subst h1; first | rfl | cases h2)

theorem steps_held {a : PAct} (h1 : isLocking a = false) (h2 : a.guarded = none) (h3 : a.access.isSome = true) (k : PVal → FProg) :
    a.steps k = .act (.enter a) fun _ => .act (.leave a) (afterAccess a k) := by
  cases a <;> simp_all [PAct.steps, PAct.guarded, PAct.access, isLocking] <;> rfl

theorem steps_atomic {a : PAct} (h1 : isLocking a = false) (h2 : a.guarded = none) (h3 : a.access = none) (k : PVal → FProg) :
    a.steps k = .act (.leave a) (afterAccess a k) := by
  cases a <;> simp_all [PAct.steps, PAct.guarded, PAct.access, isLocking] <;> rfl

/-- An action of `Model/Pool` has the effect it has here, if its mutex is not held by the goroutine of `closeAllConnection`. -/
theorem act_effect (w : World) (tid : Nat) (a : PAct) (h1 : isLocking a = false)
    (hf : ∀ p b, a.guarded = some (.pool p, b) → (w.pool p).holder = none) : w.act tid a = some (w.effect a) := by
  cases a <;> first
    | (cases h1; done)
    | rfl
    | (have := hf _ _ rfl; simp only [World.act, World.effect, this, if_true])
    | (simp only [World.act, World.effect]; split <;> rfl)

theorem effect_rel (w w' : World) (a : PAct) (hc : w'.conn = w.conn) (hp : ∀ p, (w'.pool p).clients = (w.pool p).clients) :
    (w'.effect a).1 = (w.effect a).1 ∧ (w'.effect a).2.conn = (w.effect a).2.conn ∧
    (∀ p, ((w'.effect a).2.pool p).clients = ((w.effect a).2.pool p).clients) ∧
    (∀ p, ((w'.effect a).2.pool p).holder = (w'.pool p).holder) := by
  cases a <;> simp only [World.effect, hc, hp, World.setConn, World.setPool, and_self, implies_true, true_and]
  case write c f => split <;> simp [hc, hp, World.setConn]
  all_goals (constructor <;> intro q <;> split <;> simp_all)

theorem disc_next {h : Option Nat} {a : PAct} {k : PVal → PProg Unit} (h1 : isLocking a = false) (hd : Disc h (.act a k)) (r : PVal) :
    Disc h (k r) := by
  cases a <;> first
    | (cases h1; done)
    | exact hd r
    | exact hd.2 r

/-! ## Simulation -/

/-- Where a goroutine stands after the access of `a`. -/
def afterPh (a : PAct) : Ph :=
  match a.guarded with
  | some (l, w) => .out l w
  | none => .top

theorem afterPh_lock (a : PAct) : (afterPh a).lock = a.guarded := by
  unfold afterPh
  cases h : a.guarded with
  | none => rfl
  | some x => rfl

theorem afterPh_rel (held : Option Nat) (a : PAct) (p : PProg Unit) (k : PVal → FProg) (r : PVal) (hk : k r = p.fine) (hd : Disc held p) :
    PRel held (afterAccess a k r) p (afterPh a) := by
  unfold afterPh afterAccess
  cases h : a.guarded with
  | none => simp only [hk]; exact .top p hd
  | some x =>
    obtain ⟨l, w⟩ := x
    cases w
    · simp only [hk]; exact .outR l p hd
    · simp only [hk]; exact .outW l p hd

def upd {α : Type} (f : Nat → α) (t : Nat) (v : α) : Nat → α := fun i => if i = t then v else f i

theorem upd_same {α : Type} (f : Nat → α) (t : Nat) (v : α) : upd f t v t = v := if_pos rfl
theorem upd_other {α : Type} (f : Nat → α) {t i : Nat} (v : α) (h : i ≠ t) : upd f t v i = f i := if_neg h

/-- The pool whose mutex an action has is not held by the goroutine of `closeAllConnection`. -/
theorem LInv.free {y : FSys} {z : PSys} {ph : Nat → Ph} {held : Nat → Option Nat} (h : LInv y z ph held) (tid p : Nat) (b : Bool)
    (hl : (ph tid).lock = some (.pool p, b)) : (z.world.pool p).holder = none := by
  cases ho : (z.world.pool p).holder with
  | none => rfl
  | some t =>
    have h1 := (h.holder p t).1 ho
    have h2 : (y.locks (.pool p)).writer = some t := (h.writer _ _).2 (.inr ⟨p, rfl, h1⟩)
    cases b with
    | true =>
      have h3 : (y.locks (.pool p)).writer = some tid := (h.writer _ _).2 (.inl hl)
      rw [h2] at h3
      cases h3
      exact absurd h1 (h.apart _ _ _ hl)
    | false =>
      have h3 := (h.reader (.pool p) tid).2 hl
      rw [h.excl _ _ h2] at h3
      cases h3

/-- The end of an access is the action of `Model/Pool`. -/
theorem leave_step {y : FSys} {z : PSys} {ph : Nat → Ph} {held : Nat → Option Nat} (h : LInv y z ph held) (tid : Nat) (a : PAct)
    (k : PVal → PProg Unit) (hf : y.threads tid = .act (.leave a) (afterAccess a fun r => (k r).fine)) (hz : z.threads tid = .act a k)
    (hd : Disc (held tid) (.act a k)) (hl : isLocking a = false) (hp : (ph tid).lock = a.guarded) :
    LInv (y.step tid) (z.step tid) (upd ph tid (afterPh a)) held := by
  have hact : z.world.act tid a = some (z.world.effect a) :=
    act_effect _ _ _ hl fun p b hg => h.free tid p b (by rw [hp, hg])
  obtain ⟨e1, e2, e3, e4⟩ := effect_rel y.world z.world a h.conn h.clients
  have hlock : ∀ t, (upd ph tid (afterPh a) t).lock = (ph t).lock := by
    intro t
    by_cases ht : t = tid
    · subst ht; rw [upd_same, afterPh_lock, hp]
    · rw [upd_other _ _ ht]
  unfold FSys.step PSys.step
  rw [hf, hz]
  simp only [hact]
  refine ⟨?_, ?_, ?_, h.nodup, h.excl, ?_, ?_, ?_, e2, e3, ?_⟩
  · intro i
    by_cases hi : i = tid
    · subst hi
      simp only [if_true, upd_same]
      exact afterPh_rel _ a _ _ _ (by rw [e1]) (disc_next hl hd _)
    · simp only [if_neg hi, upd_other _ _ hi]
      exact h.prog i
  · intro l t; rw [hlock]; exact h.writer l t
  · intro l t; rw [hlock]; exact h.reader l t
  · intro t p w; rw [hlock]; exact h.apart t p w
  · intro p t; rw [e4]; exact h.holder p t
  · intro i b
    by_cases hi : i = tid
    · subst hi
      simp only [if_true, upd_same, reduceCtorEq, false_iff]
      unfold afterPh
      cases a.guarded <;> simp
    · simp only [if_neg hi, upd_other _ _ hi]
      exact h.inside i b
  · simp only [List.filter_cons, hl, Bool.not_false, if_true, h.trace, e1]

theorem access_not_locking {a : PAct} (h : a.access.isSome = true) : isLocking a = false := by
  cases a <;> first | rfl | cases h

theorem guarded_not_locking {a : PAct} (h : a.guarded.isSome = true) : isLocking a = false := by
  cases a <;> first | rfl | cases h

theorem guarded_access {a : PAct} (h : a.guarded.isSome = true) : a.access.isSome = true := by
  cases a <;> first | rfl | cases h

/-- The beginning of an access changes only where the goroutine stands. -/
theorem enter_step {y : FSys} {z : PSys} {ph : Nat → Ph} {held : Nat → Option Nat} (h : LInv y z ph held) (tid : Nat) (a : PAct)
    (k : PVal → PProg Unit) (hf : y.threads tid = .act (.enter a) fun _ => .act (.leave a) (afterAccess a fun r => (k r).fine))
    (hz : z.threads tid = .act a k) (hd : Disc (held tid) (.act a k)) (ha : a.access.isSome = true) (hp : (ph tid).lock = a.guarded) :
    LInv (y.step tid) z (upd ph tid (.inn a)) held := by
  have hlock : ∀ t, (upd ph tid (.inn a) t).lock = (ph t).lock := by
    intro t
    by_cases ht : t = tid
    · subst ht; rw [upd_same, hp]; rfl
    · rw [upd_other _ _ ht]
  unfold FSys.step
  rw [hf]
  refine ⟨?_, ?_, ?_, h.nodup, h.excl, ?_, h.holder, ?_, h.conn, h.clients, h.trace⟩
  · intro i
    by_cases hi : i = tid
    · subst hi
      simp only [if_true, upd_same, hz]
      exact .inn a k hd ha
    · simp only [if_neg hi, upd_other _ _ hi]
      exact h.prog i
  · intro l t; rw [hlock]; exact h.writer l t
  · intro l t; rw [hlock]; exact h.reader l t
  · intro t p w; rw [hlock]; exact h.apart t p w
  · intro i b
    by_cases hi : i = tid
    · subst hi
      simp [upd_same]
    · simp only [if_neg hi, upd_other _ _ hi]
      exact h.inside i b

/-- Taking the mutex of an action for writing. -/
theorem lock_step {y : FSys} {z : PSys} {ph : Nat → Ph} {held : Nat → Option Nat} (h : LInv y z ph held) (tid : Nat) (l : Lk) (f : FProg)
    (φ : Ph) (hf : y.threads tid = .act (.lock l) fun _ => f) (hφ : φ.lock = some (l, true)) (hni : ∀ a, φ ≠ .inn a)
    (hrel : PRel (held tid) f (z.threads tid) φ) (hph : ph tid = .top) :
    ∃ ph', LInv (y.step tid) z ph' held := by
  unfold FSys.step
  rw [hf]
  simp only
  split
  · rename_i hfree
    obtain ⟨hw, hr⟩ := hfree
    have hnone : ∀ t, ¬ ((ph t).lock = some (l, true) ∨ ∃ p, l = .pool p ∧ held t = some p) := by
      intro t ht
      rw [← h.writer, hw] at ht; cases ht
    refine ⟨upd ph tid φ, ?_, ?_, ?_, ?_, ?_, ?_, h.holder, ?_, h.conn, h.clients, h.trace⟩
    · intro i
      by_cases hi : i = tid
      · subst hi; simp only [if_true, upd_same]; exact hrel
      · simp only [if_neg hi, upd_other _ _ hi]; exact h.prog i
    · intro l' t
      have := h.writer l' t
      by_cases hl : l' = l
      · subst hl
        simp only [if_true, Option.some.injEq]
        by_cases ht : t = tid
        · subst ht; simp [upd_same, hφ]
        · rw [upd_other _ _ ht]
          constructor
          · intro e; exact absurd e.symm ht
          · intro e; exact absurd e (hnone t)
      · simp only [if_neg hl]
        by_cases ht : t = tid
        · subst ht
          rw [this, hph, upd_same, hφ]
          simp [Ph.lock, Ne.symm hl]
        · rw [upd_other _ _ ht]; exact this
    · intro l' t
      have := h.reader l' t
      have e : (if l' = l then { y.locks l with writer := some tid } else y.locks l').readers = (y.locks l').readers := by
        split
        · rename_i e; rw [e]
        · rfl
      rw [e]
      by_cases ht : t = tid
      · subst ht
        rw [this, hph, upd_same, hφ]; simp [Ph.lock]
      · rw [upd_other _ _ ht]; exact this
    · intro l'
      dsimp only
      split
      · exact h.nodup l
      · exact h.nodup l'
    · intro l' t
      dsimp only
      split
      · intro _; exact hr
      · exact h.excl l' t
    · intro t p w
      by_cases ht : t = tid
      · subst ht
        rw [upd_same, hφ]
        intro e hh
        cases e
        exact hnone t (.inr ⟨p, rfl, hh⟩)
      · rw [upd_other _ _ ht]; exact h.apart t p w
    · intro i a
      by_cases hi : i = tid
      · subst hi
        rw [upd_same]
        have := h.inside i a
        rw [hph] at this
        simp only [reduceCtorEq, iff_false] at this
        simp [this, hni]
      · rw [upd_other _ _ hi]; exact h.inside i a
  · exact ⟨ph, h⟩

/-- Taking the mutex of an action for reading. -/
theorem rlock_step {y : FSys} {z : PSys} {ph : Nat → Ph} {held : Nat → Option Nat} (h : LInv y z ph held) (tid : Nat) (l : Lk) (f : FProg)
    (φ : Ph) (hf : y.threads tid = .act (.rlock l) fun _ => f) (hφ : φ.lock = some (l, false)) (hni : ∀ a, φ ≠ .inn a)
    (hrel : PRel (held tid) f (z.threads tid) φ) (hph : ph tid = .top) :
    ∃ ph', LInv (y.step tid) z ph' held := by
  unfold FSys.step
  rw [hf]
  simp only
  split
  · rename_i hw
    have hnone : ∀ t, ¬ ((ph t).lock = some (l, true) ∨ ∃ p, l = .pool p ∧ held t = some p) := by
      intro t ht
      rw [← h.writer, hw] at ht; cases ht
    have hnot : tid ∉ (y.locks l).readers := by
      rw [h.reader, hph]; simp [Ph.lock]
    refine ⟨upd ph tid φ, ?_, ?_, ?_, ?_, ?_, ?_, h.holder, ?_, h.conn, h.clients, h.trace⟩
    · intro i
      by_cases hi : i = tid
      · subst hi; simp only [if_true, upd_same]; exact hrel
      · simp only [if_neg hi, upd_other _ _ hi]; exact h.prog i
    · intro l' t
      have := h.writer l' t
      have e : (if l' = l then { y.locks l with readers := tid :: (y.locks l).readers } else y.locks l').writer = (y.locks l').writer := by
        split
        · rename_i e; rw [e]
        · rfl
      rw [e]
      by_cases ht : t = tid
      · subst ht
        rw [this, hph, upd_same, hφ]; simp [Ph.lock]
      · rw [upd_other _ _ ht]; exact this
    · intro l' t
      have := h.reader l' t
      by_cases hl : l' = l
      · subst hl
        simp only [if_true, List.mem_cons]
        by_cases ht : t = tid
        · subst ht; simp [upd_same, hφ]
        · rw [upd_other _ _ ht]; simp [ht, this]
      · simp only [if_neg hl]
        by_cases ht : t = tid
        · subst ht
          rw [this, hph, upd_same, hφ]
          simp [Ph.lock, Ne.symm hl]
        · rw [upd_other _ _ ht]; exact this
    · intro l'
      dsimp only
      split
      · exact List.nodup_cons.2 ⟨hnot, h.nodup l⟩
      · exact h.nodup l'
    · intro l' t
      dsimp only
      split
      · intro e; simp only [hw] at e; cases e
      · exact h.excl l' t
    · intro t p w
      by_cases ht : t = tid
      · subst ht
        rw [upd_same, hφ]
        intro e hh
        cases e
        exact hnone t (.inr ⟨p, rfl, hh⟩)
      · rw [upd_other _ _ ht]; exact h.apart t p w
    · intro i a
      by_cases hi : i = tid
      · subst hi
        rw [upd_same]
        have := h.inside i a
        rw [hph] at this
        simp only [reduceCtorEq, iff_false] at this
        simp [this, hni]
      · rw [upd_other _ _ hi]; exact h.inside i a
  · exact ⟨ph, h⟩

/-- Giving back the mutex of an action. -/
theorem unlock_step {y : FSys} {z : PSys} {ph : Nat → Ph} {held : Nat → Option Nat} (h : LInv y z ph held) (tid : Nat) (l : Lk)
    (p : PProg Unit) (hf : y.threads tid = .act (.unlock l) fun _ => p.fine) (hz : z.threads tid = p) (hd : Disc (held tid) p)
    (hph : ph tid = .out l true) : LInv (y.step tid) z (upd ph tid .top) held := by
  have hw : (y.locks l).writer = some tid := (h.writer l tid).2 (.inl (by rw [hph]; rfl))
  unfold FSys.step
  rw [hf]
  simp only [hw, if_true]
  have hlk : (ph tid).lock = some (l, true) := by rw [hph]; rfl
  refine ⟨?_, ?_, ?_, ?_, ?_, ?_, h.holder, ?_, h.conn, h.clients, h.trace⟩
  · intro i
    by_cases hi : i = tid
    · subst hi; simp only [if_true, upd_same, hz]; exact .top p hd
    · simp only [if_neg hi, upd_other _ _ hi]; exact h.prog i
  · intro l' t
    have := h.writer l' t
    by_cases hl : l' = l
    · subst hl
      simp only [if_true, reduceCtorEq, false_iff]
      by_cases ht : t = tid
      · subst ht
        rw [upd_same]
        rintro (e | ⟨p, rfl, e⟩)
        · cases e
        · exact h.apart _ _ _ hlk e
      · rw [upd_other _ _ ht, ← this, hw]
        intro e; cases e; exact ht rfl
    · simp only [if_neg hl]
      by_cases ht : t = tid
      · subst ht
        rw [this, hph, upd_same]
        simp [Ph.lock, Ne.symm hl]
      · rw [upd_other _ _ ht]; exact this
  · intro l' t
    have := h.reader l' t
    have e : (if l' = l then { y.locks l with writer := none } else y.locks l').readers = (y.locks l').readers := by
      split
      · rename_i e; rw [e]
      · rfl
    rw [e]
    by_cases ht : t = tid
    · subst ht
      rw [this, hph, upd_same]; simp [Ph.lock]
    · rw [upd_other _ _ ht]; exact this
  · intro l'
    dsimp only
    split
    · exact h.nodup l
    · exact h.nodup l'
  · intro l' t
    dsimp only
    split
    · intro e; cases e
    · exact h.excl l' t
  · intro t p w
    by_cases ht : t = tid
    · subst ht; rw [upd_same]; intro e; cases e
    · rw [upd_other _ _ ht]; exact h.apart t p w
  · intro i a
    by_cases hi : i = tid
    · subst hi
      rw [upd_same]
      have := h.inside i a
      rw [hph] at this
      simpa using this
    · rw [upd_other _ _ hi]; exact h.inside i a

theorem runlock_step {y : FSys} {z : PSys} {ph : Nat → Ph} {held : Nat → Option Nat} (h : LInv y z ph held) (tid : Nat) (l : Lk)
    (p : PProg Unit) (hf : y.threads tid = .act (.runlock l) fun _ => p.fine) (hz : z.threads tid = p) (hd : Disc (held tid) p)
    (hph : ph tid = .out l false) : LInv (y.step tid) z (upd ph tid .top) held := by
  have hr : tid ∈ (y.locks l).readers := (h.reader l tid).2 (by rw [hph]; rfl)
  unfold FSys.step
  rw [hf]
  simp only [hr, if_true]
  refine ⟨?_, ?_, ?_, ?_, ?_, ?_, h.holder, ?_, h.conn, h.clients, h.trace⟩
  · intro i
    by_cases hi : i = tid
    · subst hi; simp only [if_true, upd_same, hz]; exact .top p hd
    · simp only [if_neg hi, upd_other _ _ hi]; exact h.prog i
  · intro l' t
    have := h.writer l' t
    have e : (if l' = l then { y.locks l with readers := (y.locks l).readers.erase tid } else y.locks l').writer =
        (y.locks l').writer := by
      split
      · rename_i e; rw [e]
      · rfl
    rw [e]
    by_cases ht : t = tid
    · subst ht
      rw [this, hph, upd_same]; simp [Ph.lock]
    · rw [upd_other _ _ ht]; exact this
  · intro l' t
    have := h.reader l' t
    by_cases hl : l' = l
    · subst hl
      simp only [if_true]
      by_cases ht : t = tid
      · subst ht
        rw [upd_same]
        simp [Ph.lock, (h.nodup l').mem_erase_iff]
      · rw [upd_other _ _ ht, List.mem_erase_of_ne ht]; exact this
    · simp only [if_neg hl]
      by_cases ht : t = tid
      · subst ht
        rw [this, hph, upd_same]
        simp [Ph.lock, Ne.symm hl]
      · rw [upd_other _ _ ht]; exact this
  · intro l'
    dsimp only
    split
    · exact (h.nodup l).erase _
    · exact h.nodup l'
  · intro l' t
    dsimp only
    split
    · rename_i e
      subst e
      intro e
      have := h.excl l' t e
      rw [this] at hr; cases hr
    · exact h.excl l' t
  · intro t p w
    by_cases ht : t = tid
    · subst ht; rw [upd_same]; intro e; cases e
    · rw [upd_other _ _ ht]; exact h.apart t p w
  · intro i a
    by_cases hi : i = tid
    · subst hi
      rw [upd_same]
      have := h.inside i a
      rw [hph] at this
      simpa using this
    · rw [upd_other _ _ hi]; exact h.inside i a

/-- Taking the mutex of a pool for a whole loop. -/
theorem hold_step {y : FSys} {z : PSys} {ph : Nat → Ph} {held : Nat → Option Nat} (h : LInv y z ph held) (tid q : Nat)
    (k : PVal → PProg Unit) (hf : y.threads tid = (PProg.act (.hold q) k).fine) (hz : z.threads tid = .act (.hold q) k)
    (hd : Disc (held tid) (.act (.hold q) k)) (hph : ph tid = .top) :
    LInv (y.step tid) z ph held ∨ LInv (y.step tid) (z.step tid) ph (upd held tid (some q)) := by
  obtain ⟨hh, hk⟩ := hd
  unfold FSys.step
  rw [hf]
  simp only [PProg.fine, PAct.steps]
  split
  · right
    rename_i hfree
    obtain ⟨hw, hr⟩ := hfree
    have hnone : ∀ t, ¬ ((ph t).lock = some (.pool q, true) ∨ ∃ p, Lk.pool q = .pool p ∧ held t = some p) := by
      intro t ht
      rw [← h.writer, hw] at ht; cases ht
    have hho : (z.world.pool q).holder = none := by
      cases ho : (z.world.pool q).holder with
      | none => rfl
      | some t => exact absurd (.inr ⟨q, rfl, (h.holder q t).1 ho⟩) (hnone t)
    unfold PSys.step
    rw [hz]
    simp only [World.act, hho, if_true]
    refine ⟨?_, ?_, ?_, ?_, ?_, ?_, ?_, h.inside, ?_, ?_, ?_⟩
    · intro i
      by_cases hi : i = tid
      · subst hi; simp only [if_true, upd_same, hph]; exact .top _ (hk _)
      · simp only [if_neg hi, upd_other _ _ hi]; exact h.prog i
    · intro l t
      have := h.writer l t
      by_cases hl : l = .pool q
      · subst hl
        simp only [if_true, Option.some.injEq]
        by_cases ht : t = tid
        · subst ht; simp [upd_same]
        · rw [upd_other _ _ ht]
          constructor
          · intro e; exact absurd e.symm ht
          · intro e; exact absurd e (hnone t)
      · simp only [if_neg hl]
        by_cases ht : t = tid
        · subst ht
          rw [this, upd_same, hh]
          constructor
          · rintro (e | ⟨p, _, e⟩)
            · exact .inl e
            · cases e
          · rintro (e | ⟨p, rfl, e⟩)
            · exact .inl e
            · cases e; exact absurd rfl hl
        · rw [upd_other _ _ ht]; exact this
    · intro l t
      have := h.reader l t
      dsimp only
      split
      · rename_i e; subst e; exact this
      · exact this
    · intro l
      dsimp only
      split
      · exact h.nodup _
      · exact h.nodup l
    · intro l t
      dsimp only
      split
      · intro _; exact hr
      · exact h.excl l t
    · intro t p w
      by_cases ht : t = tid
      · subst ht; rw [hph]; intro e; cases e
      · rw [upd_other _ _ ht]; exact h.apart t p w
    · intro p t
      have := h.holder p t
      simp only [World.setPool]
      by_cases hp : p = q
      · subst hp
        simp only [if_true, Option.some.injEq]
        by_cases ht : t = tid
        · subst ht; simp [upd_same]
        · rw [upd_other _ _ ht]
          constructor
          · intro e; exact absurd e.symm ht
          · intro e; exact absurd (.inr ⟨p, rfl, e⟩) (hnone t)
      · simp only [if_neg hp]
        by_cases ht : t = tid
        · subst ht; rw [this, upd_same, hh]; simp [Ne.symm hp]
        · rw [upd_other _ _ ht]; exact this
    · exact h.conn
    · intro p
      simp only [World.setPool]
      split
      · rename_i e; subst e; exact h.clients p
      · exact h.clients p
    · simp [isLocking, h.trace]
  · exact .inl h

/-- Giving it back. -/
theorem release_step {y : FSys} {z : PSys} {ph : Nat → Ph} {held : Nat → Option Nat} (h : LInv y z ph held) (tid q : Nat)
    (k : PVal → PProg Unit) (hf : y.threads tid = (PProg.act (.release q) k).fine) (hz : z.threads tid = .act (.release q) k)
    (hd : Disc (held tid) (.act (.release q) k)) (hph : ph tid = .top) :
    LInv (y.step tid) (z.step tid) ph (upd held tid none) := by
  obtain ⟨hh, hk⟩ := hd
  have hw : (y.locks (.pool q)).writer = some tid := (h.writer _ _).2 (.inr ⟨q, rfl, hh⟩)
  unfold FSys.step PSys.step
  rw [hf, hz]
  simp only [PProg.fine, PAct.steps, hw, if_true, World.act]
  refine ⟨?_, ?_, ?_, ?_, ?_, ?_, ?_, h.inside, ?_, ?_, ?_⟩
  · intro i
    by_cases hi : i = tid
    · subst hi; simp only [if_true, upd_same, hph]; exact .top _ (hk _)
    · simp only [if_neg hi, upd_other _ _ hi]; exact h.prog i
  · intro l t
    have := h.writer l t
    by_cases hl : l = .pool q
    · subst hl
      simp only [if_true, reduceCtorEq, false_iff]
      by_cases ht : t = tid
      · subst ht
        rw [upd_same, hph]
        simp [Ph.lock]
      · rw [upd_other _ _ ht, ← this, hw]
        intro e; cases e; exact ht rfl
    · simp only [if_neg hl]
      by_cases ht : t = tid
      · subst ht
        rw [this, upd_same, hh]
        constructor
        · rintro (e | ⟨p, rfl, e⟩)
          · exact .inl e
          · cases e; exact absurd rfl hl
        · rintro (e | ⟨p, _, e⟩)
          · exact .inl e
          · cases e
      · rw [upd_other _ _ ht]; exact this
  · intro l t
    have := h.reader l t
    dsimp only
    split
    · rename_i e; subst e; exact this
    · exact this
  · intro l
    dsimp only
    split
    · exact h.nodup _
    · exact h.nodup l
  · intro l t
    dsimp only
    split
    · intro e; cases e
    · exact h.excl l t
  · intro t p w
    by_cases ht : t = tid
    · subst ht; rw [hph]; intro e; cases e
    · rw [upd_other _ _ ht]; exact h.apart t p w
  · intro p t
    have := h.holder p t
    simp only [World.setPool]
    by_cases hp : p = q
    · subst hp
      simp only [if_true, reduceCtorEq, false_iff]
      by_cases ht : t = tid
      · subst ht; simp [upd_same]
      · rw [upd_other _ _ ht, ← this, (h.holder p tid).2 hh]
        intro e; cases e; exact ht rfl
    · simp only [if_neg hp]
      by_cases ht : t = tid
      · subst ht; rw [this, upd_same, hh]; simp [Ne.symm hp]
      · rw [upd_other _ _ ht]; exact this
  · exact h.conn
  · intro p
    simp only [World.setPool]
    split
    · rename_i e; subst e; exact h.clients p
    · exact h.clients p
  · simp [isLocking, h.trace]

/-- Every step is a step of `Model/Pool`, or none. -/
theorem linv_step {y : FSys} {z : PSys} {ph : Nat → Ph} {held : Nat → Option Nat} (h : LInv y z ph held) (tid : Nat) :
    ∃ z' ph' held', (z' = z ∨ z' = z.step tid) ∧ LInv (y.step tid) z' ph' held' := by
  have hr := h.prog tid
  generalize hf : y.threads tid = f at hr
  generalize hz : z.threads tid = p at hr
  generalize hφ : ph tid = φ at hr
  cases hr with
  | top _ hd =>
    cases p with
    | ret a => exact ⟨z, ph, held, .inl rfl, by unfold FSys.step; rw [hf]; exact h⟩
    | panic => exact ⟨z, ph, held, .inl rfl, by unfold FSys.step; rw [hf]; exact h⟩
    | act a k =>
      by_cases hl : isLocking a = false
      · cases hg : a.guarded with
        | some x =>
          obtain ⟨l, w⟩ := x
          cases w with
          | true =>
            have hs := steps_guardW hg fun r => (k r).fine
            obtain ⟨ph', h'⟩ := lock_step h tid l _ (.got a) (hf.trans hs) hg (by simp) (by rw [hz]; exact .got a k hd (by simp [hg])) hφ
            exact ⟨z, ph', held, .inl rfl, h'⟩
          | false =>
            have hs := steps_guardR hg fun r => (k r).fine
            obtain ⟨ph', h'⟩ := rlock_step h tid l _ (.got a) (hf.trans hs) hg (by simp) (by rw [hz]; exact .got a k hd (by simp [hg])) hφ
            exact ⟨z, ph', held, .inl rfl, h'⟩
        | none =>
          cases hc : a.access with
          | some x =>
            have hs := steps_held hl hg (by simp [hc]) fun r => (k r).fine
            exact ⟨z, _, held, .inl rfl, enter_step h tid a k (hf.trans hs) hz hd (by simp [hc]) (by rw [hφ, hg]; rfl)⟩
          | none =>
            have hs := steps_atomic hl hg hc fun r => (k r).fine
            exact ⟨_, _, held, .inr rfl, leave_step h tid a k (hf.trans hs) hz hd hl (by rw [hφ, hg]; rfl)⟩
      · cases a with
        | hold q =>
          rcases hold_step h tid q k hf hz hd hφ with h' | h'
          · exact ⟨z, ph, held, .inl rfl, h'⟩
          · exact ⟨_, ph, _, .inr rfl, h'⟩
        | release q => exact ⟨_, ph, _, .inr rfl, release_step h tid q k hf hz hd hφ⟩
        | _ => exact absurd rfl hl
  | got a k hd hg =>
    exact ⟨z, _, held, .inl rfl, enter_step h tid a k hf hz hd (guarded_access hg) (by rw [hφ]; rfl)⟩
  | inn a k hd ha =>
    exact ⟨_, _, held, .inr rfl, leave_step h tid a k hf hz hd (access_not_locking ha) (by rw [hφ]; rfl)⟩
  | outW l _ hd => exact ⟨z, _, held, .inl rfl, unlock_step h tid l p hf hz hd hφ⟩
  | outR l _ hd => exact ⟨z, _, held, .inl rfl, runlock_step h tid l p hf hz hd hφ⟩

theorem linv_start (R : Nat → Option Nat) (jobs : Nat → Job) :
    LInv (FSys.start R jobs) (PSys.start R jobs) (fun _ => .top) (fun _ => none) := by
  refine ⟨fun i => .top _ (job_disc R _), ?_, ?_, ?_, ?_, ?_, ?_, ?_, rfl, fun _ => rfl, rfl⟩ <;> simp [FSys.start, PSys.start, Ph.lock]

theorem linv_run (R : Nat → Option Nat) (jobs : Nat → Job) (sched : List Nat) :
    ∃ sched' ph held, LInv ((FSys.start R jobs).run sched) ((PSys.start R jobs).run sched') ph held := by
  suffices ∀ y z ph held, LInv y z ph held → ∃ sched' ph' held', LInv (y.run sched) (z.run sched') ph' held' from
    this _ _ _ _ (linv_start R jobs)
  induction sched with
  | nil => exact fun y z ph held h => ⟨[], ph, held, h⟩
  | cons i sched ih =>
    intro y z ph held h
    obtain ⟨z', ph', held', hz, h'⟩ := linv_step h i
    obtain ⟨s, ph2, held2, h2⟩ := ih _ _ _ _ h'
    rcases hz with rfl | rfl
    · exact ⟨s, ph2, held2, h2⟩
    · exact ⟨i :: s, ph2, held2, h2⟩

end Tcpx
