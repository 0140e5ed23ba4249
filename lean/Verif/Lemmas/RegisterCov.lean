import Verif.Lemmas.RegisterUnUse
/-!
# Lemmas about goroutines that register and dispatch: the middlewares of what is registered, when `UnUse` is among the calls
-/
namespace Tcpx
namespace Register
open Spec

/-! ## The state the goroutines start with -/

theorem period_first (k : String) (h : List RegEv) :
    match periodAt k h with
    | .never => GoMap.get? (firstUses h) k = none ∧ inUse k h = false ∧ everEnded k h = false
    | .on f => GoMap.get? (firstUses h) k = some f ∧ inUse k h = true ∧ everEnded k h = false
    | .off => (∃ f, GoMap.get? (firstUses h) k = some f) ∧ inUse k h = false ∧ everEnded k h = true
    | .again => (∃ f, GoMap.get? (firstUses h) k = some f) := by
  induction h with
  | nil => exact ⟨rfl, rfl, rfl⟩
  | cons e h ih =>
    cases e with
    | use k' f =>
      have hmem : ∀ {g}, GoMap.get? (firstUses h) k' = some g → k' ∈ (firstUses h).map (·.1) := by
        intro g hg
        exact (GoMap.get?_isSome_iff_mem (firstUses h) k').1 (by rw [hg]; rfl)
      by_cases hk : k' = k
      · subst hk
        simp only [periodAt, if_true, inUse, everEnded]
        cases hp : periodAt k' h with
        | never =>
          rw [hp] at ih
          have hn : k' ∉ (firstUses h).map (·.1) := by
            intro q
            have := (GoMap.get?_isSome_iff_mem (firstUses h) k').2 q
            rw [ih.1] at this; cases this
          simp only [Period.use, firstUses, if_neg hn]
          rw [get?_append_none _ _ _ _ hn, if_pos rfl]
          exact ⟨rfl, trivial, ih.2.2⟩
        | on g =>
          rw [hp] at ih
          simp only [Period.use, firstUses, if_pos (hmem ih.1)]
          exact ⟨ih.1, trivial, ih.2.2⟩
        | off =>
          rw [hp] at ih
          obtain ⟨⟨g, hg⟩, _⟩ := ih
          simp only [Period.use, firstUses, if_pos (hmem hg)]
          exact ⟨g, hg⟩
        | again =>
          rw [hp] at ih
          obtain ⟨g, hg⟩ := ih
          simp only [Period.use, firstUses, if_pos (hmem hg)]
          exact ⟨g, hg⟩
      · have hget : GoMap.get? (firstUses (.use k' f :: h)) k = GoMap.get? (firstUses h) k := by
          simp only [firstUses]
          split
          · rfl
          · next hn => rw [get?_append_none _ _ _ _ hn, if_neg (Ne.symm hk)]
        simp only [periodAt, if_neg hk, inUse, everEnded, hget]
        exact ih
    | unUse k' =>
      by_cases hk : k' = k
      · subst hk
        simp only [periodAt, if_true, inUse, everEnded, firstUses, decide_true, Bool.true_and]
        cases hp : periodAt k' h with
        | never => rw [hp] at ih; obtain ⟨h1, h2, h3⟩ := ih; exact ⟨h1, by simp, by rw [h2, h3]; rfl⟩
        | on g => rw [hp] at ih; obtain ⟨h1, h2, h3⟩ := ih; exact ⟨⟨g, h1⟩, by simp, by rw [h2]; rfl⟩
        | off => rw [hp] at ih; obtain ⟨h1, h2, h3⟩ := ih; exact ⟨h1, by simp, by rw [h3]; simp⟩
        | again => rw [hp] at ih; exact ih
      · simp only [periodAt, if_neg hk, inUse, everEnded, firstUses, decide_eq_false hk, Bool.false_and, Bool.false_or]
        exact ih
    | _ => exact ih

theorem filter_first {k : String} {h : List RegEv} :
    (firstUses h).filter (fun x => x.1 = k) = ((GoMap.get? (firstUses h) k).map fun f => (k, f)).toList := by
  have hn := firstUses_nodup h
  generalize firstUses h = l at hn
  induction l with
  | nil => rfl
  | cons x l ih =>
    obtain ⟨a, v⟩ := x
    simp only [List.map_cons, List.nodup_cons] at hn
    simp only [GoMap.get?]
    by_cases e : a = k
    · subst e
      rw [List.filter_cons_of_pos (by simp)]
      have hnone : GoMap.get? l a = none := by
        cases hg : GoMap.get? l a with
        | none => rfl
        | some w => exact absurd ((GoMap.get?_isSome_iff_mem l a).1 (by rw [hg]; rfl)) hn.1
      rw [ih hn.2, hnone]
      simp
    · rw [List.filter_cons_of_neg (by simp [e]), if_neg e, ih hn.2]

theorem list_of_key (k : String) (h : List RegEv) : (runHist h).mux.anchors.filter (fun b => b.key = k) =
    ((GoMap.get? (firstUses h) k).map fun f => sliceAnchor h (k, f)).toList := by
  rw [(anchors_eq h).2, List.filter_map]
  have : (fun b : MAnchor => decide (b.key = k)) ∘ sliceAnchor h = fun x : String × H => decide (x.1 = k) := by
    funext x; rfl
  rw [this, filter_first]
  cases GoMap.get? (firstUses h) k <;> rfl

theorem st_start (k : String) (h : List RegEv) : St k (runHist h) (periodAt k h) := by
  have hp := period_first k h
  have hm := (anchors_eq h).1 k
  have hl := list_of_key k h
  have hlen := lens k h
  obtain ⟨b1, b2⟩ := bounds k h
  have has : ∀ f, GoMap.get? (firstUses h) k = some f → reopened k h = false → Has k (runHist h) (mapAnchor h (k, f)) := by
    intro f hf hr
    rw [hf] at hm hl
    refine ⟨hm, ?_, ⟨rfl, b1, b2⟩⟩
    rw [hl]
    simp [sliceAnchor, mapAnchor, hr]
  cases hq : periodAt k h with
  | never =>
    rw [hq] at hp
    rw [hp.1] at hm hl
    exact ⟨hm, hl⟩
  | on f =>
    rw [hq] at hp
    obtain ⟨h1, h2, h3⟩ := hp
    refine ⟨_, has f h1 (by simp [reopened, h3]), rfl, ?_⟩
    rw [h2, if_pos rfl] at hlen
    exact hlen
  | off =>
    rw [hq] at hp
    obtain ⟨⟨f, h1⟩, h2, h3⟩ := hp
    refine ⟨_, has f h1 (by simp [reopened, h2]), ?_⟩
    rw [h2] at hlen
    have h' : (startsOf k h).length = (endsOf k h).length := by simpa using hlen
    exact h'
  | again => trivial

/-- All anchors: their key, their ranges, where they come from. -/
def Gen (F : String → H → Prop) (k : String) (a : MAnchor) : Prop := a.key = k ∧ Wf a ∧ F k a.mw

theorem gen_clo (F : String → H → Prop) : Clo (Gen F) (fun _ _ => True) F (fun _ => False) 0 := by
  refine ⟨fun k a h => h.1, ?_, ?_, fun _ _ _ => trivial, ?_⟩
  · rintro k a i a' ⟨h1, h2, h3⟩ _ e
    refine ⟨?_, h2.use e, ?_⟩ <;> obtain ⟨rfl, _⟩ := callUse_eq e <;> assumption
  · rintro k a i a' ⟨h1, h2, h3⟩ _ e
    refine ⟨?_, h2.un e, ?_⟩ <;> obtain ⟨rfl, _⟩ := callUnUse_eq e <;> assumption
  · intro k f hF _
    exact ⟨rfl, ⟨Nat.le_refl _, Nat.le_succ _⟩, hF⟩

theorem map_wf (h : List RegEv) (x : String × H) : Wf (mapAnchor h x) := by
  have := lens x.1 h
  constructor <;> simp only [mapAnchor] <;> split at this <;> omega

theorem slice_wf (h : List RegEv) (x : String × H) : Wf (sliceAnchor h x) := by
  have := lens x.1 h
  constructor
  · simp only [sliceAnchor]
    split
    · next hr =>
      simp only [reopened, Bool.and_eq_true] at hr
      rw [hr.1, if_pos rfl] at this
      rw [List.length_dropLast]; omega
    · split at this <;> omega
  · simp only [sliceAnchor]
    split
    · rw [List.length_dropLast]; split at this <;> omega
    · split at this <;> omega

theorem gen_start (h : List RegEv) (progs : List (List Call)) : AS (Gen (GivenTo h progs)) (fun _ => False) 0 (runHist h) := by
  obtain ⟨e1, e2⟩ := anchors_eq h
  refine ⟨?_, ?_, by simp, Nat.zero_le _⟩
  · intro k a ha
    rw [e1] at ha
    cases hg : GoMap.get? (firstUses h) k with
    | none => rw [hg] at ha; cases ha
    | some f =>
      rw [hg] at ha
      cases ha
      exact ⟨rfl, map_wf h _, .inl (firstUses_mem h _ _ (GoMap.mem_of_get?_eq_some hg))⟩
  · intro a ha
    rw [e2] at ha
    simp only [List.mem_map] at ha
    obtain ⟨⟨k, f⟩, hx, rfl⟩ := ha
    exact ⟨rfl, slice_wf h _, .inl (firstUses_mem h _ _ hx)⟩

theorem gen_run (h : List RegEv) (progs : List (List Call)) (sched : List Nat) :
    AI (Gen (GivenTo h progs)) (fun _ _ => True) (GivenTo h progs) (fun _ => False) 0 ((start (runHist h) progs).run sched) :=
  ai_run (gen_clo _) (ai_start (gen_start h progs) progs fun p hp k f hm => .inr ⟨p, hp, hm⟩) sched

/-! ## What an index is covered by -/

/-- What holds of the anchor of the key with respect to index `x`, drawn in state `p`. -/
def Want (x : Nat) (a : MAnchor) : Period → Prop
  | .on f => a.contains x = some true ∧ a.mw = f
  | .again => True
  | _ => a.contains x = some false

def Fix (F : String → H → Prop) (k : String) (p : Period) (x : Nat) (k' : String) (a : MAnchor) : Prop :=
  Gen F k' a ∧ (k' = k → Want x a p)

theorem fix_clo (F : String → H → Prop) (k : String) (p : Period) (x : Nat) :
    Clo (Fix F k p x) (fun k' i => k' = k → x < i) F (fun k' => k' = k ∧ ∃ f, p = .on f) x := by
  have g := gen_clo F
  refine ⟨fun k a h => h.1.1, ?_, ?_, fun _ _ h _ => h, ?_⟩
  · rintro k' a i a' ⟨h1, h2⟩ hi e
    refine ⟨g.use k' a i a' h1 trivial e, fun q => ?_⟩
    have hc := contains_use h1.2.1 (hi q) e
    have hm : a'.mw = a.mw := by obtain ⟨rfl, _⟩ := callUse_eq e; rfl
    have := h2 q
    cases p <;> simp only [Want, hc, hm] at this ⊢ <;> exact this
  · rintro k' a i a' ⟨h1, h2⟩ hi e
    refine ⟨g.un k' a i a' h1 trivial e, fun q => ?_⟩
    have hc := contains_un h1.2.1 (hi q) e
    have hm : a'.mw = a.mw := by obtain ⟨rfl, _⟩ := callUnUse_eq e; rfl
    have := h2 q
    cases p <;> simp only [Want, hc, hm] at this ⊢ <;> exact this
  · intro k' f hF hn
    refine ⟨g.fresh k' f hF (fun q => q), fun q => ?_⟩
    cases p with
    | on f' => exact absurd ⟨q, f', rfl⟩ hn
    | again => trivial
    | _ => rfl

/-- From now on `x` is covered as it is to be. -/
def Cov (F : String → H → Prop) (k : String) (p : Period) (x : Nat) (y : Sys) : Prop :=
  AI (Fix F k p x) (fun k' i => k' = k → x < i) F (fun k' => k' = k ∧ ∃ f, p = .on f) x y ∧
  ∀ f, p = .on f → k ∈ y.srv.mux.anchors.map (·.key)

theorem cov_step {F : String → H → Prop} {k : String} {p : Period} {x : Nat} {y : Sys} (h : Cov F k p x y) (j : Nat) : Cov F k p x (y.step j) :=
  ⟨ai_step (fix_clo F k p x) h.1 j, fun f e => (step_keys y j).subset (h.2 f e)⟩

theorem cov_run {F : String → H → Prop} {k : String} {p : Period} {x : Nat} {y : Sys} (h : Cov F k p x y) (sched : List Nat) :
    Cov F k p x (y.run sched) := by
  induction sched generalizing y with
  | nil => exact h
  | cons j t ih => exact ih (cov_step h j)

/-- A call that does not name the key does not have its anchor in hand. -/
theorem OnAnch.fix {F : String → H → Prop} {k : String} {p : Period} {x : Nat} {c : Call} {r : List Act} {l : Loc}
    (h : OnAnch (Gen F) (fun _ _ => True) F c r l) (hc : names k c = false) : OnAnch (Fix F k p x) (fun k' i => k' = k → x < i) F c r l := by
  cases h with
  | quiet _ _ _ h => exact .quiet _ _ _ h
  | look k' f _ hF => exact .look k' f _ hF
  | new k' f _ j hj a ha hG hI =>
    have hne : k' ≠ k := by simpa [names] using hc
    exact .new k' f _ j hj a ha ⟨hG, fun q => absurd q hne⟩ fun _ q => absurd q hne
  | old k' f _ j hj a ha hG hI =>
    have hne : k' ≠ k := by simpa [names] using hc
    exact .old k' f _ j hj a ha ⟨hG, fun q => absurd q hne⟩ fun _ q => absurd q hne
  | un0 k' _ => exact .un0 k' _
  | un k' _ j h1 hj a ha hG hI =>
    have hne : k' ≠ k := by simpa [names] using hc
    exact .un k' _ j h1 hj a ha ⟨hG, fun q => absurd q hne⟩ fun _ q => absurd q hne

theorem want_of {k : String} {s : Srv} {p : Period} (h : St k s p) {x : Nat} (hx : s.mux.seed < x) :
    (∀ a, s.mux.anchorMap.get? k = some a → Want x a p) ∧ (∀ a ∈ s.mux.anchors, a.key = k → Want x a p) ∧
    (∀ f, p = .on f → (s.mux.anchorMap.get? k).isSome = true ∧ k ∈ s.mux.anchors.map (·.key)) := by
  have inList : ∀ {a : MAnchor} {l : List MAnchor}, l = s.mux.anchors.filter (fun b => b.key = k) → a ∈ s.mux.anchors → a.key = k → a ∈ l := by
    intro a l e ha hk
    rw [e]
    exact List.mem_filter.2 ⟨ha, by simp [hk]⟩
  cases p with
  | never =>
    refine ⟨?_, ?_, by intro f e; cases e⟩
    · intro a e; rw [h.1] at e; cases e
    · intro a ha hk; cases inList h.2.symm ha hk
  | on f =>
    obtain ⟨a, h1, rfl, hl⟩ := h
    have hw : Want x a (.on a.mw) := by
      refine ⟨?_, rfl⟩
      have hne : a.starts ≠ [] := by intro q; rw [q] at hl; simp at hl
      have hlast := List.getLast?_eq_some_getLast hne
      have hle := h1.below.starts _ (List.getLast_mem hne)
      unfold MAnchor.contains
      rw [if_neg (by omega), hlast]
      simp only
      rw [if_pos (by omega)]
    refine ⟨?_, ?_, ?_⟩
    · intro a' e; rw [h1.map] at e; cases e; exact hw
    · intro a' ha hk
      have := inList h1.list.symm ha hk
      simp only [List.mem_singleton] at this
      subst this; exact hw
    · intro f e
      refine ⟨by rw [h1.map]; rfl, ?_⟩
      have : a ∈ s.mux.anchors.filter (fun b => b.key = k) := by rw [h1.list]; simp
      exact List.mem_map.2 ⟨a, (List.mem_filter.1 this).1, h1.below.key⟩
  | off =>
    obtain ⟨a, h1, hl⟩ := h
    have hw : Want x a .off := by
      show a.contains x = some false
      unfold MAnchor.contains
      rw [if_pos hl]
      exact scan_none_covered _ _ _ (by omega) fun z hz => Nat.lt_of_le_of_lt (h1.below.ends z hz) hx
    refine ⟨?_, ?_, by intro f e; cases e⟩
    · intro a' e; rw [h1.map] at e; cases e; exact hw
    · intro a' ha hk
      have := inList h1.list.symm ha hk
      simp only [List.mem_singleton] at this
      subst this; exact hw
  | again => exact ⟨fun _ _ => trivial, fun _ _ _ => trivial, by intro f e; cases e⟩

/-- When goroutine `n`, in a call that does not name the key, draws an index. -/
theorem cov_gain {F : String → H → Prop} {k : String} {n : Nat} {p0 : Period} {progs : List (List Call)}
    (hoth : ∀ (j : Nat) (q : List Call), progs[j]? = some q → j ≠ n → ∀ c ∈ q, names k c = false) {y : Sys}
    (ha : AI (Gen F) (fun _ _ => True) F (fun _ => False) 0 y) (h : KeyInv k n p0 progs y) {g : Gor} {c : Call} {r : List Act} (hg : y.gors[n]? = some g)
    (hcur : g.cur = some (c, .index :: r)) (hc : names k c = false) :
    Cov F k (period k p0 (g.log.reverse.map (·.1))) (y.srv.mux.seed + 1) (y.step n) := by
  have hst := ((h.own g hg).2 _ _ hcur).st hc
  obtain ⟨w1, w2, w3⟩ := want_of hst (Nat.lt_succ_self y.srv.mux.seed)
  rw [step_plain y n g c .index r hg hcur rfl]
  have hsk : SameAnch y.srv (Act.exec y.srv g.loc r .index).1 := exec_sameAnch .index rfl _ _ _
  refine ⟨⟨⟨?_, ?_, ?_, Nat.le_refl _⟩, ?_, ?_⟩, ?_⟩
  · intro k' a e
    have e' : y.srv.mux.anchorMap.get? k' = some a := e
    exact ⟨ha.srv.map _ _ e', fun q => w1 a (q ▸ e')⟩
  · intro a hm
    exact ⟨ha.srv.list a hm, fun q => w2 a hm q⟩
  · rintro k' ⟨rfl, f, e⟩
    exact (w3 f e).1
  · intro i gi hi c' r' hc'
    rcases get_set _ _ _ _ _ hi with ⟨rfl, rfl, _⟩ | ⟨hne, hi⟩
    · simp only [Option.some.injEq, Prod.mk.injEq] at hc'
      obtain ⟨rfl, rfl⟩ := hc'
      have hq := ha.gor i g hg _ _ hcur
      exact (hq.exec (gen_clo F) ha.srv).2.fix hc
    · exact (ha.gor i gi hi _ _ hc').fix (hoth i _ (h.all i gi hi) hne c' (cur_mem hc'))
  · intro i gi hi
    rcases get_set _ _ _ _ _ hi with ⟨rfl, rfl, _⟩ | ⟨hne, hi⟩
    · exact ha.todo i g hg
    · exact ha.todo i gi hi
  · intro f e
    exact (w3 f e).2

/-- What covers an index. -/
theorem Cov.guarded {h : List RegEv} {progs : List (List Call)} {k : String} {p : Period} {x : Nat} {y : Sys} (hc : Cov (GivenTo h progs) k p x y) :
    ∃ as, anchorsAt y.srv.mux.anchors x = some as ∧ (∀ m ∈ as, ∃ k', GivenTo h progs k' m) ∧ Guarded h progs k as p := by
  obtain ⟨as, e, hm⟩ := anchorsAt_some y.srv.mux.anchors x fun a ha => (hc.1.srv.list a ha).1.2.1
  refine ⟨as, e, ?_, ?_⟩
  · intro m hmem
    obtain ⟨a, ha, _, rfl⟩ := (hm m).1 hmem
    exact ⟨a.key, (hc.1.srv.list a ha).1.2.2⟩
  · have hfalse : (∀ a, Want x a p → a.contains x = some false) → ∀ f, (∀ k', GivenTo h progs k' f → k' = k) → f ∉ as := by
      intro hw f hf hmem
      obtain ⟨a, ha, ht, rfl⟩ := (hm f).1 hmem
      obtain ⟨g1, g2⟩ := hc.1.srv.list a ha
      have := hw a (g2 (hf _ g1.2.2))
      rw [ht] at this; simp at this
    cases p with
    | on f =>
      obtain ⟨a, ha, hk⟩ := List.mem_map.1 (hc.2 f rfl)
      obtain ⟨q1, q2⟩ := (hc.1.srv.list a ha).2 hk
      exact (hm f).2 ⟨a, ha, q1, q2⟩
    | again => trivial
    | never => exact hfalse fun a q => q
    | off => exact hfalse fun a q => q

/-! ## Together -/

/-- An id or pattern that goroutine `n` registers by one call, and a key only it names. -/
theorem covered_run (h : List RegEv) (key : Key) (hkey : anchorOf (runHist h).mux key = none) (progs : List (List Call))
    (hrw : ∀ q ∈ progs, ∀ c ∈ q, ∀ id f, key = .id id → c ≠ .rewriteHeartBeat id f)
    (hnd : ∀ id, key = .id id → ∀ t, NoDel id ((start (runHist h) progs).run t)) (n : Nat) (pre post : List Call) (reg : Call)
    (hn : progs[n]? = some (pre ++ reg :: post)) (hpre : ∀ c ∈ pre, c.key ≠ some key) (hpost : ∀ c ∈ post, c.key ≠ some key)
    (hoth : ∀ j q, progs[j]? = some q → j ≠ n → ∀ c ∈ q, c.key ≠ some key) (k : String)
    (hk : ∀ j q, progs[j]? = some q → j ≠ n → ∀ c ∈ q, names k c = false) (sched : List Nat) (x : Nat)
    (hx : anchorOf ((start (runHist h) progs).run sched).srv.mux key = some x) :
    Cov (GivenTo h progs) k (period k (periodAt k h) pre) x ((start (runHist h) progs).run sched) := by
  have hunnamed : ∀ c : Call, c.key = some key → names k c = false := by
    intro c hc; cases c <;> first | rfl | simp [Call.key] at hc
  suffices hs : AI (Gen (GivenTo h progs)) (fun _ _ => True) (GivenTo h progs) (fun _ => False) 0 ((start (runHist h) progs).run sched) ∧
      KeyInv k n (periodAt k h) progs ((start (runHist h) progs).run sched) ∧
      RegInv key n progs (Cov (GivenTo h progs) k (period k (periodAt k h) pre)) ((start (runHist h) progs).run sched) from
    hs.2.2.cov x (.inl hx)
  clear hx x
  have hmem : ∀ {i : Nat} {g : Gor}, (start (runHist h) progs).gors[i]? = some g → ∃ q, progs[i]? = some q ∧ g = { todo := q } := by
    intro i g hg
    simp only [start, List.getElem?_map, Option.map_eq_some_iff] at hg
    obtain ⟨q, h1, rfl⟩ := hg
    exact ⟨q, h1, rfl⟩
  have h0 : AI (Gen (GivenTo h progs)) (fun _ _ => True) (GivenTo h progs) (fun _ => False) 0 (start (runHist h) progs) ∧
      KeyInv k n (periodAt k h) progs (start (runHist h) progs) ∧
      RegInv key n progs (Cov (GivenTo h progs) k (period k (periodAt k h) pre)) (start (runHist h) progs) := by
    have hall : ∀ (i : Nat) (g : Gor), (start (runHist h) progs).gors[i]? = some g → progs[i]? = some g.all := by
      intro i g hg
      obtain ⟨q, h1, rfl⟩ := hmem hg
      rw [h1]; simp [Gor.all]
    refine ⟨gen_run h progs [], ⟨hall, ?_⟩, ⟨hall, ?_, ?_⟩⟩
    · intro g hg
      obtain ⟨q, h1, rfl⟩ := hmem hg
      exact ⟨fun _ => st_start k h, by intro c r e; cases e⟩
    · intro i g hg
      obtain ⟨q, h1, rfl⟩ := hmem hg
      intro c r e; cases e
    · rintro x (q | ⟨g, c, j, hg, _, _, hcur, _⟩)
      · have : anchorOf (runHist h).mux key = some x := q
        rw [hkey] at this; cases this
      · obtain ⟨q, h1, rfl⟩ := hmem hg
        cases hcur
  generalize start (runHist h) progs = y at h0 hnd
  clear hmem
  induction sched generalizing y with
  | nil => exact h0
  | cons j t ih =>
    refine ih (y.step j) ?_ (fun id e t => hnd id e (j :: t))
    obtain ⟨h1, h2, h3⟩ := h0
    refine ⟨ai_step (gen_clo _) h1 j, key_step (gen_clo _) hk h1 h2 j, reg_step ?_ ?_ (fun x i hc => cov_step hc i) ?_ h3 j⟩
    · intro i q hq c hc
      exact ⟨hrw q (List.mem_of_getElem? hq) c hc, fun hne => hoth i q hq hne c hc⟩
    · exact fun id e => hnd id e []
    · intro g c hg hcur hck
      have := cov_gain hk h1 h2 hg hcur (hunnamed c hck)
      have hlog : g.log.reverse.map (·.1) = pre := by
        have hall := h2.all n g hg
        rw [hn, Option.some.injEq] at hall
        have : g.log.reverse.map (·.1) ++ c :: g.todo = pre ++ reg :: post := by
          rw [hall]; simp [Gor.all, hcur]
        exact (split_unique (P := fun c : Call => c.key = some key) this hck hpre hpost).1
      rwa [hlog] at this

/-! ## The settings -/

/-- The settings dispatch reads. -/
structure SameCfg (s s' : Srv) : Prop where
  hbId : s'.hbId = s.hbId
  hbThrough : s'.hbThrough = s.hbThrough
  authId : s'.authId = s.authId
  authThrough : s'.authThrough = s.authThrough

def Act.cfgs : Act → Bool
  | .setHb _ => true
  | .delHandler => true
  | .delIdAnchor => true
  | _ => false

theorem exec_cfg (a : Act) (ha : a.cfgs = false) (s : Srv) (l : Loc) (r : List Act) : SameCfg s (a.exec s l r).1 := by
  cases a <;> try (simp [Act.cfgs] at ha; done)
  all_goals simp only [Act.exec]
  all_goals (repeat' split)
  all_goals exact ⟨rfl, rfl, rfl, rfl⟩

theorem unwind_cfgs (r : List Act) : ∀ a ∈ unwind r, a.cfgs = false := by
  unfold unwind; split <;> simp [Act.cfgs]

theorem exec_cfgs (a : Act) (s : Srv) (l : Loc) (r : List Act) (hr : ∀ b ∈ r, b.cfgs = false) : ∀ b ∈ (a.exec s l r).2.2, b.cfgs = false := by
  have hu := unwind_cfgs r
  cases a <;> simp only [Act.exec]
  all_goals (repeat' split)
  all_goals first
    | exact hr
    | exact hu
    | (intro b hb; simp only [List.mem_cons] at hb
       rcases hb with rfl | hb
       · rfl
       · exact hr b hb)
    | (simp [Act.cfgs, Register.locked]; done)

theorem code_cfgs (c : Call) (hr : rewritesHb c = false) : ∀ a ∈ c.code, a.cfgs = false := by
  cases c with
  | addHandler id hs => simp only [Call.code, addHandlerCode]; (repeat' split) <;> simp [Register.locked, Act.cfgs]
  | useGlobal ms => simp [Call.code, Register.locked, Act.cfgs]
  | use k f => simp [Call.code, Act.cfgs]
  | unUse k => simp [Call.code, Register.locked, Act.cfgs]
  | any p hs => simp only [Call.code, anyCode]; (repeat' split) <;> simp [Register.locked, Act.cfgs]
  | rewriteHeartBeat id' f => simp [rewritesHb] at hr
  | listen => simp [Call.code, Act.cfgs]
  | byId i => simp [Call.code, rlocked, Act.cfgs]
  | byUrl p => simp [Call.code, rlocked, Act.cfgs]

structure CfgInv (s0 : Srv) (y : Sys) : Prop where
  same : SameCfg s0 y.srv
  gor : ∀ g ∈ y.gors, (∀ c ∈ g.todo, rewritesHb c = false) ∧ ∀ c r, g.cur = some (c, r) → ∀ a ∈ r, a.cfgs = false

theorem cfg_step {s0 : Srv} {y : Sys} (h : CfgInv s0 y) (j : Nat) : CfgInv s0 (y.step j) := by
  have key : ∀ (g' : Gor) (s : Srv) (w : Option Nat) (rd : List Nat), SameCfg s0 s →
      ((∀ c ∈ g'.todo, rewritesHb c = false) ∧ ∀ c r, g'.cur = some (c, r) → ∀ a ∈ r, a.cfgs = false) → CfgInv s0 ⟨s, w, rd, y.gors.set j g'⟩ := by
    intro g' s w rd hs hg'
    refine ⟨hs, ?_⟩
    intro g hg
    rcases List.mem_or_eq_of_mem_set hg with q | q
    · exact h.gor g q
    · subst q; exact hg'
  have pass : ∀ {a : Act} {c : Call} {r : List Act} (g : Gor) (w : Option Nat) (rd : List Nat), y.gors[j]? = some g → g.cur = some (c, a :: r) →
      CfgInv s0 ⟨y.srv, w, rd, y.gors.set j { g with cur := some (c, r) }⟩ := by
    intro a c r g w rd hg hcur
    obtain ⟨q1, q2⟩ := h.gor g (List.mem_of_getElem? hg)
    refine key _ _ _ _ h.same ⟨q1, ?_⟩
    intro c' r' e b hb
    simp only [Option.some.injEq, Prod.mk.injEq] at e
    obtain ⟨rfl, rfl⟩ := e
    exact q2 _ _ hcur b (List.mem_cons_of_mem _ hb)
  have hw := went y j
  generalize y.step j = z at hw
  cases hw with
  | stay => exact h
  | begin g c cs hg hcur ht =>
    obtain ⟨q1, q2⟩ := h.gor g (List.mem_of_getElem? hg)
    rw [ht] at q1
    refine key _ _ _ _ h.same ⟨fun c hc => q1 c (List.mem_cons_of_mem _ hc), ?_⟩
    intro c' r' e
    simp only [Option.some.injEq, Prod.mk.injEq] at e
    obtain ⟨rfl, rfl⟩ := e
    exact code_cfgs c (q1 c List.mem_cons_self)
  | lock g c r hg hcur _ _ => exact pass g _ _ hg hcur
  | unlock g c r hg hcur _ => exact pass g _ _ hg hcur
  | rlock g c r hg hcur _ => exact pass g _ _ hg hcur
  | runlock g c r hg hcur _ => exact pass g _ _ hg hcur
  | ret g c o r hg hcur => exact key _ _ _ _ h.same ⟨(h.gor g (List.mem_of_getElem? hg)).1, by intro c r e; cases e⟩
  | plain g c a r hg hcur hp =>
    obtain ⟨q1, q2⟩ := h.gor g (List.mem_of_getElem? hg)
    have ha := q2 _ _ hcur a List.mem_cons_self
    have hs := exec_cfg a ha y.srv g.loc r
    refine key _ _ _ _ ⟨hs.hbId.trans h.same.hbId, hs.hbThrough.trans h.same.hbThrough, hs.authId.trans h.same.authId,
      hs.authThrough.trans h.same.authThrough⟩ ⟨q1, ?_⟩
    intro c' r' e
    simp only [Option.some.injEq, Prod.mk.injEq] at e
    obtain ⟨rfl, rfl⟩ := e
    exact exec_cfgs a _ _ _ fun b hb => q2 _ _ hcur b (List.mem_cons_of_mem _ hb)

theorem cfg_run {s0 : Srv} {y : Sys} (h : CfgInv s0 y) (sched : List Nat) : CfgInv s0 (y.run sched) := by
  induction sched generalizing y with
  | nil => exact h
  | cons j t ih => exact ih (cfg_step h j)

theorem cfg_start (s : Srv) (progs : List (List Call)) (hrw : ∀ q ∈ progs, ∀ c ∈ q, rewritesHb c = false) : CfgInv s (start s progs) := by
  refine ⟨⟨rfl, rfl, rfl, rfl⟩, ?_⟩
  intro g hg
  simp only [start, List.mem_map] at hg
  obtain ⟨q, hq, rfl⟩ := hg
  exact ⟨hrw q hq, by intro c r e; cases e⟩

theorem bypass_cfg (h : List RegEv) (id : Int32) {s : Srv} (hs : SameCfg (runHist h) s) : Bypass s id ↔ bypasses h id := by
  obtain ⟨c1, c2, _⟩ := cfg_eq h
  unfold Bypass bypasses
  rw [hs.hbId, hs.hbThrough, hs.authId, hs.authThrough, ← c1, ← c2]

theorem rewritesHb_eq (c : Call) : c.rewrites = rewritesHb c := by cases c <;> rfl

end Register
end Tcpx
