import Verif.Lemmas.RegisterDisp
import Verif.Lemmas.RegisterMark
import Verif.Lemmas.RegisterAlone
import Verif.Lemmas.Routing
/-!
# Lemmas about goroutines that register and dispatch: what comes out after a history of registrations
-/
namespace Tcpx
namespace Register
open Spec

/-! ## The state the goroutines start with -/

theorem registration_none (id : Int32) (h : List RegEv) (hid : ∀ hs, RegEv.addHandler id hs ∉ h) : registration id h = none := by
  induction h with
  | nil => rfl
  | cons e h ih =>
    have ih := ih fun hs hm => hid hs (List.mem_cons_of_mem _ hm)
    cases e with
    | addHandler id' hs =>
      have : id' ≠ id := by rintro rfl; exact hid hs List.mem_cons_self
      simp [registration, this, ih]
    | removeHandler id' => simp only [registration]; split <;> first | rfl | exact ih
    | _ => exact ih

theorem fresh_id (id : Int32) (h : List RegEv) (hid : ∀ hs, RegEv.addHandler id hs ∉ h) :
    (runHist h).mux.handlers.get? id = none ∧ (runHist h).mux.selfMw.get? id = none ∧ (runHist h).mux.idAnchors.get? id = none := by
  have hs := registration_state id h
  rw [registration_none id h hid] at hs
  refine ⟨hs.1, ?_, hs.2⟩
  cases hm : (runHist h).mux.selfMw.get? id with
  | none => rfl
  | some l =>
    obtain ⟨hs', hm', _⟩ := selfMw_origin h id l hm
    exact absurd hm' (hid hs')

theorem scan_above (ss es : List Nat) (n i : Nat) (he : ∀ x ∈ es, x ≤ n) (hi : n < i) :
    MAnchor.scan ss es i = if es.length ≤ ss.length then some false else none := by
  induction es generalizing ss with
  | nil => cases ss <;> simp [MAnchor.scan]
  | cons e es ih =>
    cases ss with
    | nil => simp [MAnchor.scan]
    | cons s ss =>
      have h1 := he e List.mem_cons_self
      simp only [MAnchor.scan]
      rw [if_neg (by omega), ih ss fun x hx => he x (List.mem_cons_of_mem _ hx)]
      simp

theorem contains_above (a : MAnchor) (n i j : Nat) (hs : ∀ x ∈ a.starts, x ≤ n) (he : ∀ x ∈ a.ends, x ≤ n) (hi : n < i) (hj : n < j) :
    a.contains i = a.contains j := by
  unfold MAnchor.contains
  rw [scan_above _ _ n i he hi, scan_above _ _ n j he hj]
  split
  · rfl
  · cases hl : a.starts.getLast? with
    | none => rfl
    | some l =>
      have := hs l (List.mem_of_getLast? hl)
      simp only
      rw [if_pos (by omega), if_pos (by omega)]

theorem anchorsAt_congr (as : List MAnchor) (i j : Nat) (h : ∀ a ∈ as, a.contains i = a.contains j) : anchorsAt as i = anchorsAt as j := by
  induction as with
  | nil => rfl
  | cons a as ih =>
    simp only [anchorsAt]
    rw [h a List.mem_cons_self, ih fun b hb => h b (List.mem_cons_of_mem _ hb)]

/-- A registration made later gets the middlewares in use. -/
theorem anchors_above (h : List RegEv) (hno : ∀ k, inUse k h = true → everEnded k h = false) (i : Nat) (hi : seedOf h < i) :
    anchorsAt (runHist h).mux.anchors i = some (inUseAt h h) := by
  have e1 : anchorsAt (runHist h).mux.anchors i = anchorsAt (runHist h).mux.anchors (seedOf h + 1) := by
    apply anchorsAt_congr
    intro a ha
    rw [(anchors_eq h).2] at ha
    simp only [List.mem_map] at ha
    obtain ⟨⟨k, f⟩, _, rfl⟩ := ha
    obtain ⟨b1, b2⟩ := bounds k h
    refine contains_above _ (seedOf h) _ _ ?_ b2 hi (Nat.lt_succ_self _)
    intro x hx
    simp only [sliceAnchor] at hx
    split at hx
    · exact b1 x ((List.dropLast_sublist _).subset hx)
    · exact b1 x hx
  rw [e1, (anchors_eq h).2]
  have hany : seedOf (RegEv.any "" [0] :: h) = seedOf h + 1 := ((any_cases (runHist h) "" [0]).2.2 (by simp)).1
  have hc : ∀ k f, (sliceAnchor h (k, f)).contains (seedOf h + 1) = some (inUse k h) := by
    intro k f
    have := slice_covers k h (.any "" [0]) rfl hany [] f
    rw [List.nil_append] at this
    have e2 : sliceAnchor (RegEv.any "" [0] :: h) (k, f) = sliceAnchor h (k, f) := by
      rw [(sliceAnchor_congr (.any "" [0]) h rfl).1]
    rw [e2] at this
    rw [this]
    simp only [covered, List.not_mem_nil, decide_false, Bool.or_false]
    cases hk : inUse k h with
    | false => rfl
    | true => rw [hno k hk]; rfl
  unfold inUseAt
  generalize firstUses h = l
  induction l with
  | nil => rfl
  | cons x l ih =>
    obtain ⟨k, f⟩ := x
    simp only [List.map_cons, anchorsAt, hc k f, ih, Option.map_some]
    cases hk : inUse k h <;> simp [hk, sliceAnchor]

theorem bypass_iff (h : List RegEv) (id : Int32) {s : Srv} (hs : Stays (runHist h) s) : Bypass s id ↔ bypasses h id := by
  obtain ⟨c1, c2, _⟩ := cfg_eq h
  unfold Bypass bypasses
  rw [hs.hbId, hs.hbThrough, hs.authId, hs.authThrough, ← c1, ← c2]

theorem allow_of (h : List RegEv) (hl : Spec.locked h = false) : (runHist h).mux.allowAdd = true := by
  rw [allowAdd_eq, hl]; rfl

/-! ## Middlewares put in use meanwhile -/

theorem firstUses_mem (h : List RegEv) (k : String) (f : H) (hm : (k, f) ∈ firstUses h) : RegEv.use k f ∈ h := by
  induction h with
  | nil => cases hm
  | cons e h ih =>
    have tl : (k, f) ∈ firstUses h → RegEv.use k f ∈ e :: h := fun q => List.mem_cons_of_mem _ (ih q)
    cases e with
    | use k' f' =>
      simp only [firstUses] at hm
      split at hm
      · exact tl hm
      · rcases List.mem_append.1 hm with hm | hm
        · exact tl hm
        · simp only [List.mem_singleton, Prod.mk.injEq] at hm
          obtain ⟨rfl, rfl⟩ := hm
          exact List.mem_cons_self
    | _ => exact tl hm

theorem keys_of {h : List RegEv} {progs : List (List Call)} (hk : FreshKeys h progs) :
    Keys progs fun k => ((runHist h).mux.anchorMap.get? k).isSome = true := by
  refine ⟨hk.1, ?_⟩
  intro p hp x hx hm
  rw [(anchors_eq h).1] at hm
  cases hg : GoMap.get? (firstUses h) x.1 with
  | none => rw [hg] at hm; cases hm
  | some f => exact hk.2 p hp x hx f (firstUses_mem h _ _ (GoMap.mem_of_get?_eq_some hg))

/-- The middlewares an id or pattern gets that the goroutines have registered. -/
theorem new_anchors_key (h : List RegEv) (hno : ∀ k, inUse k h = true → everEnded k h = false) (key : Key)
    (hkey : anchorOf (runHist h).mux key = none) (progs : List (List Call)) (hp : ∀ p ∈ progs, ∀ c ∈ p, noUnUse c = true) (hk : FreshKeys h progs)
    (sched : List Nat) (x : Nat) (hx : anchorOf ((start (runHist h) progs).run sched).srv.mux key = some x) :
    ∃ (i : Nat) (g : Gor) (pre post : List Call) (c : Call) (us : List H) (cut : Nat → Nat), ((start (runHist h) progs).run sched).gors[i]? = some g ∧
      g.all = pre ++ c :: post ∧ c.key = some key ∧
      (g.cur = none → ∃ preL postL, g.log.reverse = preL ++ (c, .returned) :: postL ∧ preL.map (·.1) = pre) ∧
      cut i = pre.length ∧ UsedUpTo progs cut us ∧
      anchorsAt ((start (runHist h) progs).run sched).srv.mux.anchors x = some (inUseAt h h ++ us) := by
  obtain ⟨marks, hm⟩ := mark_run (runHist h) progs hp sched
  have hall := all_progs (runHist h) progs sched
  rcases hm.ids key x hx with q | ⟨m, hmm, he, rfl⟩
  · rw [hkey] at q; cases q
  · obtain ⟨g, pre, post, c, us, cut, q1, q2, qk, q3, q4, q5, q6⟩ := uses_at hm (keys_of hk) hall hmm he
    refine ⟨m.gor, g, pre, post, c, us, cut, q1, q2, qk, q3, q4, q5, ?_⟩
    rw [hm.anchors, anchorsAt_append, anchors_above h hno m.idx (hm.rng m hmm).2.1, q6]
    rfl

/-- The middlewares an id gets that the goroutines have registered. -/
theorem new_anchors (h : List RegEv) (hno : ∀ k, inUse k h = true → everEnded k h = false) (id : Int32)
    (hid : ∀ hs, RegEv.addHandler id hs ∉ h) (progs : List (List Call)) (hp : ∀ p ∈ progs, ∀ c ∈ p, noUnUse c = true) (hk : FreshKeys h progs)
    (sched : List Nat) (x : Nat) (hx : ((start (runHist h) progs).run sched).srv.mux.idAnchors.get? id = some x) :
    ∃ (i : Nat) (g : Gor) (pre post : List Call) (hs us : List H) (cut : Nat → Nat), ((start (runHist h) progs).run sched).gors[i]? = some g ∧
      g.all = pre ++ .addHandler id hs :: post ∧
      (g.cur = none → ∃ preL postL, g.log.reverse = preL ++ (.addHandler id hs, .returned) :: postL ∧ preL.map (·.1) = pre) ∧
      cut i = pre.length ∧ UsedUpTo progs cut us ∧
      anchorsAt ((start (runHist h) progs).run sched).srv.mux.anchors x = some (inUseAt h h ++ us) := by
  obtain ⟨i, g, pre, post, c, us, cut, q1, q2, qk, q3, q4, q5, q6⟩ := new_anchors_key h hno (.id id) (fresh_id id h hid).2.2 progs hp hk sched x hx
  cases c <;> simp [Call.key] at qk
  subst qk
  exact ⟨i, g, pre, post, _, us, cut, q1, q2, q3, q4, q5, q6⟩

theorem old_anchors (s : Srv) (progs : List (List Call)) (hp : ∀ p ∈ progs, ∀ c ∈ p, noUnUse c = true) (sched : List Nat) (x : Nat)
    (hx : x ≤ s.mux.seed) : anchorsAt ((start s progs).run sched).srv.mux.anchors x = anchorsAt s.mux.anchors x := by
  obtain ⟨marks, hm⟩ := mark_run s progs hp sched
  exact marks_old hm x hx

/-! ## Who registered the handler -/

theorem sum_pos (f : Gor → Nat) (l : List Gor) (h : 0 < (l.map f).sum) : ∃ (j : Nat) (g : Gor), l[j]? = some g ∧ 0 < f g := by
  induction l with
  | nil => simp at h
  | cons x xs ih =>
    by_cases hx : 0 < f x
    · exact ⟨0, x, rfl, hx⟩
    · simp only [List.map_cons, List.sum_cons] at h
      obtain ⟨j, g, hj, hg⟩ := ih (by omega)
      exact ⟨j + 1, g, by simpa using hj, hg⟩

theorem IdInv.handler {id : Int32} {seed0 : Nat} {progs : List (List Call)} {y : Sys} (h : IdInv id seed0 progs y) {f : H}
    (hf : y.srv.mux.handlers.get? id = some f) :
    ∃ (j : Nat) (g : Gor) (hs : List H), y.gors[j]? = some g ∧ .addHandler id hs ∈ g.log.reverse.map (·.1) ++ (g.cur.map (·.1)).toList ∧
      hs.getLast? = some f ∧ (hs.length > 1 → y.srv.mux.selfMw.get? id = some hs.dropLast) ∧
      (g.cur = none → (.addHandler id hs, .returned) ∈ g.log) := by
  have hsum := h.sum
  rw [hf] at hsum
  simp only [Option.isSome_some, if_true] at hsum
  obtain ⟨j, g, hj, hpos⟩ := sum_pos (passes id) y.gors (by omega)
  have hgi := h.gor j g hj
  unfold passes at hpos
  by_cases hp : passing id g = 0
  · rw [hp, Nat.zero_add] at hpos
    obtain ⟨⟨c, o⟩, hm, he⟩ := List.countP_pos_iff.1 hpos
    simp only [Bool.and_eq_true, beq_iff_eq] at he
    obtain ⟨he, rfl⟩ := he
    cases c with
    | addHandler id' hs =>
      simp only [registersId, decide_eq_true_eq] at he
      subst he
      obtain ⟨q1, q2, q3, _⟩ := hgi.ret hs hm
      refine ⟨j, g, hs, hj, ?_, ?_, q3, fun _ => hm⟩
      · refine List.mem_append.2 (.inl (List.mem_map.2 ⟨_, List.mem_reverse.2 hm, rfl⟩))
      · rw [← q2, hf]
    | _ => simp [registersId] at he
  · have hcur : ∃ c r, g.cur = some (c, r) := by
      cases hc : g.cur with
      | none => unfold passing at hp; rw [hc] at hp; exact absurd rfl hp
      | some p => exact ⟨p.1, p.2, rfl⟩
    obtain ⟨c, r, hcur⟩ := hcur
    rcases hgi.cur c r hcur with ⟨hs, f', rfl, hl, ⟨k, hk⟩ | ⟨hr, _⟩⟩ | ⟨_, hr⟩ | ⟨hn, _⟩
    · rw [passing_full hcur hk.le hk.code] at hp
      have h6 : 6 ≤ k := by
        apply Classical.byContradiction; intro hn; rw [if_neg hn] at hp; exact hp rfl
      refine ⟨j, g, hs, hj, by rw [hcur]; simp, ?_, fun hlen => hk.self (by omega) hlen, by intro q; rw [hcur] at q; cases q⟩
      have := hk.hand h6
      rw [hf] at this
      rw [hl, this]
    · exact absurd (passing_refused hcur hr) hp
    · exact absurd (passing_refused hcur (.inr hr)) hp
    · exact absurd (passing_other hcur hn) hp

/-! ## At the end -/

theorem all_interleaved (s : Srv) (progs : List (List Call)) (sched : List Nat) (hd : AllDone ((start s progs).run sched)) :
    ∃ gs, ((start s progs).run sched).srv.mux.globals = s.mux.globals ++ gs ∧
      Interleaved gs fun i => givenGlobals (progs[i]?.getD []) := by
  obtain ⟨tags, h1, h2, h3⟩ := (glob_run (glob_start s progs) sched).ex
  refine ⟨_, h1, tags, rfl, ?_⟩
  intro i
  cases hg : ((start s progs).run sched).gors[i]? with
  | none =>
    have hp : progs[i]? = none := by
      have := run_all (start s progs) sched i
      rw [hg] at this
      simp only [start, List.getElem?_map, Option.map_map, Option.map_none] at this
      cases hp : progs[i]? with
      | none => rfl
      | some p => rw [hp] at this; cases this
    show _ = givenGlobals (progs[i]?.getD [])
    rw [hp]
    have : tags.filter (fun t => decide (t.1 = i)) = [] := by
      apply List.filter_eq_nil_iff.2
      intro t ht e
      have := h2 t ht
      have hlen : ((start s progs).run sched).gors.length ≤ i := List.getElem?_eq_none_iff.1 hg
      simp only [decide_eq_true_eq] at e
      omega
    rw [this]; rfl
  | some g =>
    show _ = givenGlobals (progs[i]?.getD [])
    rw [h3 i g hg]
    obtain ⟨q1, q2⟩ := hd g (List.mem_of_getElem? hg)
    have := all_progs s progs sched i g hg
    rw [this]
    simp only [Gor.all, q1, q2, put]
    simp

theorem gs_from (s : Srv) (progs : List (List Call)) (sched : List Nat) :
    ∃ gs, ((start s progs).run sched).srv.mux.globals = s.mux.globals ++ gs ∧
      (∀ m ∈ gs, ∃ p ∈ progs, ∃ ms, .useGlobal ms ∈ p ∧ m ∈ ms) ∧
      ∀ (i : Nat) (g : Gor), ((start s progs).run sched).gors[i]? = some g → List.Sublist (givenGlobals (g.log.reverse.map (·.1))) gs := by
  have hinv := glob_run (glob_start s progs) sched
  obtain ⟨tags, h1, h2, h3⟩ := hinv.ex
  have mem_given : ∀ (cs : List Call) m, m ∈ givenGlobals cs → ∃ ms, .useGlobal ms ∈ cs ∧ m ∈ ms := by
    intro cs
    induction cs with
    | nil => intro m hm; cases hm
    | cons c cs ih =>
      intro m hm
      have lift : m ∈ givenGlobals cs → ∃ ms, .useGlobal ms ∈ c :: cs ∧ m ∈ ms := by
        intro hm
        obtain ⟨ms, a, b⟩ := ih m hm
        exact ⟨ms, List.mem_cons_of_mem _ a, b⟩
      cases c with
      | useGlobal ms =>
        rcases List.mem_append.1 hm with hm | hm
        · exact ⟨ms, List.mem_cons_self, hm⟩
        · exact lift hm
      | _ => exact lift hm
  refine ⟨_, h1, ?_, ?_⟩
  · intro m hm
    simp only [List.mem_map] at hm
    obtain ⟨⟨i, m'⟩, ht, rfl⟩ := hm
    have hlt := h2 _ ht
    have hg : ((start s progs).run sched).gors[i]? = some _ := List.getElem?_eq_getElem hlt
    have h4 := h3 i _ hg
    have hm : m' ∈ (tags.filter (fun t => decide (t.1 = i))).map (·.2) :=
      List.mem_map.2 ⟨(i, m'), List.mem_filter.2 ⟨ht, by simp⟩, rfl⟩
    rw [h4] at hm
    have hp := all_progs s progs sched i _ hg
    rcases List.mem_append.1 hm with hm | hm
    · obtain ⟨ms, a, b⟩ := mem_given _ _ hm
      exact ⟨_, List.mem_of_getElem? hp, ms, List.mem_append.2 (.inl a), b⟩
    · unfold put at hm
      split at hm
      · next ms r hc =>
        split at hm
        · refine ⟨_, List.mem_of_getElem? hp, ms, ?_, hm⟩
          simp [Gor.all, hc]
        · cases hm
      · cases hm
  · intro i g hg
    have h4 := h3 i g hg
    have : List.Sublist ((tags.filter (fun t => decide (t.1 = i))).map (·.2)) (tags.map (·.2)) := List.Sublist.map _ List.filter_sublist
    rw [h4] at this
    exact (List.sublist_append_left _ _).trans this

/-- In a program that registers the id once, what precedes the registration is over when the registration is under way. -/
theorem pre_prefix {L T pre post : List Call} {C : Option Call} {x : Call} (h : L ++ (C.toList ++ T) = pre ++ x :: post) (hx : x ∉ pre)
    (hm : x ∈ L ++ C.toList) : pre <+: L := by
  have h' : (L ++ C.toList) ++ T = pre ++ x :: post := by rw [← h]; simp
  have hlen : pre.length < (L ++ C.toList).length := by
    apply Classical.byContradiction
    intro hn
    have : (L ++ C.toList) <+: pre := by
      refine List.prefix_of_prefix_length_le (l₃ := pre ++ x :: post) ⟨T, h'⟩ ⟨_, rfl⟩ (by omega)
    exact hx (this.subset hm)
  have hC : C.toList.length ≤ 1 := by cases C <;> simp
  refine List.prefix_of_prefix_length_le (l₃ := pre ++ x :: post) ⟨_, rfl⟩ ⟨_, h⟩ ?_
  simp only [List.length_append] at hlen
  omega

theorem split_unique {α : Type _} {P : α → Prop} {a b c d : List α} {x z : α} (h : a ++ x :: b = c ++ z :: d) (hx : P x) (hc : ∀ q ∈ c, ¬ P q)
    (hd : ∀ q ∈ d, ¬ P q) : a = c ∧ x = z := by
  induction a generalizing c with
  | nil =>
    cases c with
    | nil => simp only [List.nil_append, List.cons.injEq] at h; exact ⟨rfl, h.1⟩
    | cons q c =>
      simp only [List.nil_append, List.cons_append, List.cons.injEq] at h
      exact absurd (h.1 ▸ hx) (hc q List.mem_cons_self)
  | cons w a ih =>
    cases c with
    | nil =>
      simp only [List.nil_append, List.cons_append, List.cons.injEq] at h
      refine absurd hx (hd x ?_)
      rw [← h.2]; simp
    | cons q c =>
      simp only [List.cons_append, List.cons.injEq] at h
      obtain ⟨r1, r2⟩ := ih h.2 fun q hq => hc q (List.mem_cons_of_mem _ hq)
      exact ⟨by rw [h.1, r1], r2⟩

/-! ## An id nobody registers -/

theorem Same.trans {id : Int32} {s s' s'' : Srv} (h : Same id s s') (h' : Same id s' s'') : Same id s s'' :=
  ⟨h'.h.trans h.h, h'.m.trans h.m, h'.a.trans h.a, h'.al.trans h.al, Nat.le_trans h.sd h'.sd⟩

/-- Nothing under way or to come touches the id. -/
def CalmInv (id : Int32) (y : Sys) : Prop :=
  ∀ (i : Nat) (g : Gor), y.gors[i]? = some g → (∀ c ∈ g.todo, registersId id c = false ∧ ∀ f, c ≠ .rewriteHeartBeat id f) ∧
    ∀ c r, g.cur = some (c, r) → ∀ a ∈ r, a.touches id = false

theorem calm_step {id : Int32} {y : Sys} (h : CalmInv id y) (hnd : NoDel id y) (j : Nat) :
    CalmInv id (y.step j) ∧ Same id y.srv (y.step j).srv := by
  have key : ∀ (g' : Gor) (s : Srv) (w : Option Nat) (rd : List Nat), ((∀ c ∈ g'.todo, registersId id c = false ∧ ∀ f, c ≠ .rewriteHeartBeat id f) ∧
      ∀ c r, g'.cur = some (c, r) → ∀ a ∈ r, a.touches id = false) → CalmInv id ⟨s, w, rd, y.gors.set j g'⟩ := by
    intro g' s w rd hg' i gi hi
    rcases get_set _ _ _ _ _ hi with ⟨rfl, rfl, _⟩ | ⟨_, hi⟩
    · exact hg'
    · exact h i gi hi
  have cons : ∀ {a : Act} {c : Call} {r : List Act} (g : Gor) (w : Option Nat) (rd : List Nat), y.gors[j]? = some g → g.cur = some (c, a :: r) →
      CalmInv id ⟨y.srv, w, rd, y.gors.set j { g with cur := some (c, r) }⟩ := by
    intro a c r g w rd hg hcur
    refine key _ _ _ _ ⟨(h j g hg).1, ?_⟩
    intro c' r' e b hb
    simp only [Option.some.injEq, Prod.mk.injEq] at e
    obtain ⟨rfl, rfl⟩ := e
    exact (h j g hg).2 _ _ hcur b (List.mem_cons_of_mem _ hb)
  have hw := went y j
  generalize y.step j = z at hw
  cases hw with
  | stay => exact ⟨h, Same.rfl' _ _⟩
  | begin g c cs hg hcur ht =>
    have hg0 := (h j g hg).1
    rw [ht] at hg0
    refine ⟨key _ _ _ _ ⟨fun c hc => hg0 c (List.mem_cons_of_mem _ hc), ?_⟩, Same.rfl' _ _⟩
    intro c' r' e
    simp only [Option.some.injEq, Prod.mk.injEq] at e
    obtain ⟨rfl, rfl⟩ := e
    have := hg0 c List.mem_cons_self
    exact code_touches id c this.1 this.2
  | lock g c r hg hcur _ _ => exact ⟨cons g _ _ hg hcur, Same.rfl' _ _⟩
  | unlock g c r hg hcur _ => exact ⟨cons g _ _ hg hcur, Same.rfl' _ _⟩
  | rlock g c r hg hcur _ => exact ⟨cons g _ _ hg hcur, Same.rfl' _ _⟩
  | runlock g c r hg hcur _ => exact ⟨cons g _ _ hg hcur, Same.rfl' _ _⟩
  | ret g c o r hg hcur => exact ⟨key _ _ _ _ ⟨(h j g hg).1, by intro c r e; cases e⟩, Same.rfl' _ _⟩
  | plain g c a r hg hcur hp =>
    have hs := (h j g hg).2 _ _ hcur
    have ha := hs a List.mem_cons_self
    refine ⟨key _ _ _ _ ⟨(h j g hg).1, ?_⟩, exec_same id a ha _ _ (hnd g (List.mem_of_getElem? hg) _ _ _ hcur) _⟩
    intro c' r' e
    simp only [Option.some.injEq, Prod.mk.injEq] at e
    obtain ⟨rfl, rfl⟩ := e
    exact exec_touches id a _ _ _ (fun b hb => hs b (List.mem_cons_of_mem _ hb))

theorem calm_run {id : Int32} {y : Sys} (h : CalmInv id y) (hnd : ∀ t, NoDel id (y.run t)) (sched : List Nat) :
    CalmInv id (y.run sched) ∧ Same id y.srv (y.run sched).srv := by
  induction sched generalizing y with
  | nil => exact ⟨h, Same.rfl' _ _⟩
  | cons j t ih =>
    have h1 := calm_step h (hnd []) j
    have h2 := ih h1.1 fun t' => hnd (j :: t')
    exact ⟨h2.1, h1.2.trans h2.2⟩

theorem calm_start (id : Int32) (s : Srv) (progs : List (List Call))
    (hp : ∀ p ∈ progs, ∀ c ∈ p, registersId id c = false ∧ ∀ f, c ≠ .rewriteHeartBeat id f) : CalmInv id (start s progs) := by
  intro i g hg
  have hmem := List.mem_of_getElem? hg
  simp only [start, List.mem_map] at hmem
  obtain ⟨p, hpm, rfl⟩ := hmem
  exact ⟨hp p hpm, by intro c r e; cases e⟩

theorem noUnUse_rewrites {c : Call} (h : noUnUse c = true) : c.rewrites = false := by cases c <;> first | rfl | simp [noUnUse] at h

/-! ## One goroutine -/

theorem done_step {y : Sys} (hd : AllDone y) (i : Nat) : y.step i = y := by
  unfold Sys.step
  cases hg : y.gors[i]? with
  | none => rfl
  | some g =>
    obtain ⟨h1, h2⟩ := hd g (List.mem_of_getElem? hg)
    simp only [h1, h2]

theorem done_run {y : Sys} (hd : AllDone y) (sched : List Nat) : y.run sched = y := by
  induction sched with
  | nil => rfl
  | cons i t ih =>
    show (y.step i).run t = y
    rw [done_step hd]; exact ih

theorem run_append (y : Sys) (a b : List Nat) : y.run (a ++ b) = (y.run a).run b := List.foldl_append

theorem run_sole {y : Sys} (h : y.gors.length = 1) (sched : List Nat) : y.run sched = y.run (List.replicate (sched.count 0) 0) := by
  induction sched generalizing y with
  | nil => rfl
  | cons i t ih =>
    have hl : (y.step i).gors.length = 1 := by
      have := run_length y [i]
      rw [h] at this; exact this
    cases i with
    | zero =>
      rw [List.count_cons_self, List.replicate_succ]
      exact ih hl
    | succ i =>
      have : y.step (i + 1) = y := by
        unfold Sys.step
        rw [List.getElem?_eq_none (by omega)]
      rw [List.count_cons_of_ne (by omega)]
      show (y.step (i + 1)).run t = _
      rw [this]; exact ih h

end Register
end Tcpx
