import Verif.Model.LoginClient
import Verif.Props.ExampleClients
/-!
# Property C148: what the clients of the guarded login show

A request is what `HeaderOf` gives for its message and what `Bind` returns for it.
-/
namespace Tcpx
open Spec LoginClient

/-- The texts that `json` makes of maps: `Unmarshal` into a map gives the map back, into a `Response` the value of "token", or an empty
string if there is none. -/
structure Spec.AnswerCodec (enc : List (String × String) → Bytes) (obj : Bytes → Option (List (String × String)))
    (tok : Bytes → Option String) : Prop where
  obj : ∀ m, obj (enc m) = some m
  tok : ∀ m, tok (enc m) = some ((m.lookup "token").getD "")

/-- The bytes of an answer. -/
def Spec.answerBytes (enc : List (String × String) → Bytes) (hb : Bytes) (a : Answer) : Bytes := Spec.frame a.id.toInt hb (enc a.body)

/-- A message that the guard lets in. -/
def Spec.LetIn (header : Res Header) : Prop := ∃ h, header = .ok h ∧ h.get? "Authorization" = some (.str "a client secret key")

/-- What the user should see of the answer to a request: the token if the login has succeeded, and otherwise the reason why not. -/
def Spec.tells (text : Err → String) (header : Res Header) (bound : Except String Unit) (x : Shown) : Prop :=
  (LetIn header → match bound with | .ok _ => x = .token token | .error e => x = .map [("message", e)]) ∧
  (∀ e, header = .err e → x = .map [("message", text e)]) ∧
  (∀ h, header = .ok h → ¬ LetIn header → ∃ reason, reason ≠ "" ∧ x = .map [("message", reason)])

theorem login_recv {obj : Bytes → Option (List (String × String))} {tok : Bytes → Option String} (id : Int32) (hb bb rest : Bytes)
    (e : Ending) (r : Reader) (hs : payload hb bb < 2^31 - 4) (hr : stream r = (Spec.frame id.toInt hb bb ++ rest, e))
    {l : List Shown} (hl : display obj tok id bb = some l) :
    ∃ r', stream r' = (rest, e) ∧ LoginClient.recv obj tok r = (l ++ (LoginClient.recv obj tok r').1, (LoginClient.recv obj tok r').2) := by
  obtain ⟨r', h1, h2⟩ := step_frame _ _ _ _ _ _ hs hr
  refine ⟨r', h2, ?_⟩
  obtain ⟨-, k1, -, -, -, t, k2, k3⟩ := C02_accessors { live := Spec.frame id.toInt hb bb } id hb bb [] (by simp) hs
  conv => lhs; unfold LoginClient.recv
  split
  · rename_i h'; rw [h1] at h'; cases h'
  · rename_i h'; rw [h1] at h'; cases h'
  · rename_i h'; rw [h1] at h'; cases h'
  · rename_i h'; rw [h1] at h'; cases h'
    rw [k1, k2]
    simp only [k3, hl]

theorem login_end {obj : Bytes → Option (List (String × String))} {tok : Bytes → Option String} {r : Reader}
    (hi : Incomplete 0 (stream r).1) (he : (stream r).2.plain) :
    LoginClient.recv obj tok r = ([], if (stream r).2 = .stillOpen then .waits else .exits) := by
  have h : shortOut (firstBlockOf (some r)) (stream r).2 := incomplete_step r 0 hi
  conv => lhs; unfold LoginClient.recv
  cases hs : (stream r).2 <;> rw [hs] at h he
  · have h : firstBlockOf (some r) = .block := h
    split <;> (rename_i h'; rw [h] at h'; cases h') <;> rfl
  · obtain ⟨_, h⟩ := h
    split <;> (rename_i h'; rw [h] at h'; cases h') <;> rfl
  · exact he.elim
  · obtain ⟨_, h⟩ := h
    split <;> (rename_i h'; rw [h] at h'; cases h') <;> rfl

/-- C148 (partial): a client shows, for every answer the server sends, once and in order, the token if the login has succeeded, and
otherwise why the guard has refused the request, however the bytes are cut up on the way; then it waits, or ends if the connection has
ended.
Missing: requests that the guard lets in and `login` refuses (`C148_reason_violated`). -/
theorem C148_told_partial (enc : List (String × String) → Bytes) (obj : Bytes → Option (List (String × String))) (tok : Bytes → Option String)
    (hc : AnswerCodec enc obj tok) (text : Err → String) (reqs : List (Res Header × Except String Unit × Answer × Bytes))
    (hq : ∀ q ∈ reqs, answer text q.1 q.2.1 = some q.2.2.1 ∧ payload q.2.2.2 (enc q.2.2.1.body) < 2^31 - 4 ∧
      (LetIn q.1 → q.2.1 = .ok ()))
    (tail : Bytes) (e : Ending) (ht : Incomplete 0 tail) (he : e.plain) (r : Reader)
    (hr : stream r = ((reqs.map fun q => answerBytes enc q.2.2.2 q.2.2.1).flatten ++ tail, e)) :
    ∃ shown, LoginClient.recv obj tok r = (shown, if e = .stillOpen then .waits else .exits) ∧ shown.length = reqs.length ∧
      ∀ (i : Nat) (q : Res Header × Except String Unit × Answer × Bytes) (x : Shown), reqs[i]? = some q → shown[i]? = some x →
        tells text q.1 q.2.1 x := by
  induction reqs generalizing r with
  | nil =>
    have hr : stream r = (tail, e) := hr
    have := login_end (obj := obj) (tok := tok) (r := r) (by rw [hr]; exact ht) (by rw [hr]; exact he)
    exact ⟨[], by rw [this, hr], rfl, by simp⟩
  | cons q reqs ih =>
    obtain ⟨ha, hs, hin⟩ := hq q List.mem_cons_self
    obtain ⟨header, bound, a, hb⟩ := q
    simp only at ha hs hin
    simp only [List.map_cons, List.flatten_cons, List.append_assoc] at hr
    have key : ∃ x, display obj tok a.id (enc a.body) = some [x] ∧ tells text header bound x := by
      unfold answer at ha
      split at ha
      · rename_i h
        split at ha
        · rename_i hn
          simp only [Option.some.injEq] at ha; subst ha
          refine ⟨_, by rw [display, if_pos (by decide), hc.obj], ?_, ?_, ?_⟩
          · rintro ⟨h', e1, e2⟩; cases e1; rw [hn] at e2; cases e2
          · intro _ h; cases h
          · intro _ _ _; exact ⟨_, by decide, rfl⟩
        · rename_i auth hn
          split at ha
          · rename_i hne
            simp only [Option.some.injEq] at ha; subst ha
            refine ⟨_, by rw [display, if_pos (by decide), hc.obj], ?_, ?_, ?_⟩
            · rintro ⟨h', e1, e2⟩; cases e1; rw [hn] at e2; cases e2; exact absurd rfl hne
            · intro _ h; cases h
            · intro _ _ _; exact ⟨_, by decide, rfl⟩
          · rename_i hne
            have hne : auth = .str "a client secret key" := Classical.not_not.1 hne
            subst hne
            have hl : LetIn (.ok h) := ⟨h, rfl, hn⟩
            have := hin hl
            subst this
            simp only [Option.some.injEq] at ha; subst ha
            refine ⟨.token token, by rw [display, loginAnswer, if_neg (by decide), if_pos rfl, hc.tok]; rfl, fun _ => rfl, ?_, ?_⟩
            · intro _ h; cases h
            · intro _ _ h; exact absurd hl h
      · rename_i e'
        simp only [Option.some.injEq] at ha; subst ha
        refine ⟨_, by rw [display, if_pos (.inl rfl), hc.obj], ?_, ?_, ?_⟩
        · rintro ⟨h', e1, _⟩; cases e1
        · intro e'' h; cases h; rfl
        · intro h h'; cases h'
      · cases ha
      · cases ha
    obtain ⟨x, hx, htell⟩ := key
    obtain ⟨r', h1, h2⟩ := login_recv (obj := obj) (tok := tok) a.id hb (enc a.body) _ e r hs hr hx
    obtain ⟨shown, k1, k2, k3⟩ := ih (fun q' h' => hq q' (List.mem_cons_of_mem _ h')) r' h1
    refine ⟨x :: shown, by rw [h2, k1]; rfl, by simp [k2], ?_⟩
    intro i q y hq' hy
    cases i with
    | zero =>
      simp only [List.getElem?_cons_zero, Option.some.injEq] at hq' hy
      subst hq' hy
      exact htell
    | succ i => exact k3 i q y (by simpa using hq') (by simpa using hy)

/-- C148 is violated: of a request that the guard lets in and `login` refuses, whatever the reason, the client shows an empty token and
not the reason. -/
theorem C148_reason_violated (enc : List (String × String) → Bytes) (obj : Bytes → Option (List (String × String))) (tok : Bytes → Option String)
    (hc : AnswerCodec enc obj tok) (text : Err → String) (header : Res Header) (hl : LetIn header) (reason : String) (hb rest : Bytes)
    (hs : payload hb (enc [("message", reason)]) < 2^31 - 4) :
    ∃ a, answer text header (.error reason) = some a ∧ ∀ (e : Ending) (r : Reader), stream r = (answerBytes enc hb a ++ rest, e) →
      ∃ r', stream r' = (rest, e) ∧
        LoginClient.recv obj tok r = (.token "" :: (LoginClient.recv obj tok r').1, (LoginClient.recv obj tok r').2) := by
  obtain ⟨h, rfl, hh⟩ := hl
  refine ⟨⟨2, [("message", reason)]⟩, by simp [answer, hh, loginAnswer], fun e r hr => ?_⟩
  exact login_recv (obj := obj) (tok := tok) 2 hb (enc [("message", reason)]) rest e r hs hr
    (l := [.token ""]) (by rw [display, if_neg (by decide), if_pos rfl, hc.tok]; rfl)

/-- A number in bytes, used in the examples: as many ones, then a zero. -/
def Demo.num (n : Nat) : Bytes := List.replicate n 1 ++ [0]
/-- Its inverse, for a list of numbers. -/
def Demo.nums : Nat → Bytes → List Nat
  | _, [] => []
  | a, b :: bs => if b = 0 then a :: Demo.nums 0 bs else Demo.nums (a + 1) bs
/-- A text as a list of numbers. -/
def Demo.str (s : String) : List Nat := s.toList.map (·.toNat + 1) ++ [0]
/-- Its inverse, for a list of texts. -/
def Demo.strs : List Char → List Nat → List String
  | _, [] => []
  | a, n :: ns => if n = 0 then String.ofList a.reverse :: Demo.strs [] ns else Demo.strs (Char.ofNat (n - 1) :: a) ns
/-- Every two texts are a pair. -/
def Demo.pairs : List String → List (String × String)
  | k :: v :: l => (k, v) :: Demo.pairs l
  | _ => []
/-- A way to write maps, used in the examples in place of JSON. -/
def Demo.encMap (m : List (String × String)) : Bytes := ((m.flatMap fun x => [x.1, x.2]).flatMap Demo.str).flatMap Demo.num
/-- Its inverse. -/
def Demo.decMap (b : Bytes) : List (String × String) := Demo.pairs (Demo.strs [] (Demo.nums 0 b))

theorem Demo.decMap_encMap (m : List (String × String)) : Demo.decMap (Demo.encMap m) = m := by
  have h1 : ∀ n a bs, Demo.nums a (Demo.num n ++ bs) = (a + n) :: Demo.nums 0 bs := by
    intro n
    induction n with
    | zero => intro a bs; simp [Demo.num, Demo.nums]
    | succ n ih =>
      intro a bs
      have := ih (a + 1) bs
      simp only [Demo.num, List.replicate_succ, List.cons_append, Demo.nums] at this ⊢
      rw [if_neg (by decide), this]
      congr 1; omega
  have h2 : ∀ l : List Nat, Demo.nums 0 (l.flatMap Demo.num) = l := by
    intro l
    induction l with
    | nil => rfl
    | cons n l ih => rw [List.flatMap_cons, h1, ih, Nat.zero_add]
  have h3 : ∀ (cs a : List Char) ns, Demo.strs a (cs.map (·.toNat + 1) ++ [0] ++ ns) = String.ofList (a.reverse ++ cs) :: Demo.strs [] ns := by
    intro cs
    induction cs with
    | nil => intro a ns; simp [Demo.strs]
    | cons c cs ih =>
      intro a ns
      have := ih (c :: a) ns
      simp only [List.map_cons, List.cons_append, Demo.strs]
      rw [if_neg (by omega), Nat.add_sub_cancel, Char.ofNat_toNat, this]
      simp
  have h4 : ∀ l : List String, Demo.strs [] (l.flatMap Demo.str) = l := by
    intro l
    induction l with
    | nil => rfl
    | cons s l ih => rw [List.flatMap_cons, Demo.str, h3, ih]; simp
  have h5 : Demo.pairs (m.flatMap fun x => [x.1, x.2]) = m := by
    induction m with
    | nil => rfl
    | cons x m ih => rw [List.flatMap_cons]; simp only [List.cons_append, List.nil_append, Demo.pairs, ih]
  rw [Demo.decMap, Demo.encMap, h2, h4, h5]

-- the hypotheses can be met: a codec, and a request that the guard refuses and one that it lets in, with their answers
example : AnswerCodec Demo.encMap (fun b => some (Demo.decMap b)) (fun b => some (((Demo.decMap b).lookup "token").getD "")) :=
  ⟨fun m => by rw [Demo.decMap_encMap], fun m => by rw [Demo.decMap_encMap]⟩
example : answer (fun _ => "short") (.ok (some [("Authorization", .str "a client secret key")])) (.ok ()) =
      some ⟨2, [("message", "login success"), ("token", token)]⟩ ∧
    answer (fun _ => "short") (.ok (some [("Authorization", .str "guess")])) (.ok ()) =
      some ⟨403, [("message", "auth fail, invalid client secret key")]⟩ ∧
    answer (fun _ => "short") (.ok none) (.ok ()) = some ⟨403, [("message", "not found auth in header['Authorization']")]⟩ ∧
    answer (fun _ => "short") (.err .short) (.ok ()) = some ⟨500, [("message", "short")]⟩ := by decide
example : LetIn (.ok (some [("Authorization", .str "a client secret key")])) := ⟨_, rfl, by decide⟩

end Tcpx
