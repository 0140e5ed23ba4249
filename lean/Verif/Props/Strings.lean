import Verif.Model.Strings
import Verif.Spec.Strings
/-!
# C68–C71: string functions and message headers
-/
namespace Tcpx
open Spec

/-! ## C69: `In` -/

theorem strContains_iff (sub s : List Char) : strContains sub s = true ↔ sub <:+: s := by
  induction s with
  | nil => simp [strContains]
  | cons c cs ih => simp [strContains, ih, List.infix_cons_iff]

theorem singleton_infix (c : Char) (l : List Char) : [c] <:+: l ↔ c ∈ l := by
  constructor
  · rintro ⟨a, b, rfl⟩; simp
  · intro h
    obtain ⟨a, b, rfl⟩ := List.append_of_mem h
    exact ⟨a, b, by simp⟩

theorem strContains_percent (v : List Char) : strContains ['%'] v = true ↔ '%' ∈ v := by
  rw [strContains_iff, singleton_infix]

/-- The test the code makes for one pattern. -/
def matchesOne (v s : List Char) : Bool :=
  if strContains ['%'] v then
    if ['%'].isPrefixOf v && ['%'].isSuffixOf v then strContains ((v.take (v.length - 1)).drop 1) s
    else if ['%'].isPrefixOf v then (v.drop 1).isSuffixOf s
    else if ['%'].isSuffixOf v then (v.take (v.length - 1)).isPrefixOf s
    else false
  else v = s

theorem strIn_cons (s v : List Char) (vs : List (List Char)) :
    strIn s (v :: vs) = if v = ['%'] then .panic else if matchesOne v s then .ok true else strIn s vs := by
  by_cases hv : v = ['%']
  · subst hv; rfl
  · rw [if_neg hv, strIn]
    unfold matchesOne
    by_cases h1 : strContains ['%'] v = true
    · rw [if_pos h1, if_pos h1]
      by_cases h2 : (['%'].isPrefixOf v && ['%'].isSuffixOf v) = true
      · rw [if_pos h2, if_pos h2]
        have hlen : ¬ v.length - 1 < 1 := by
          intro hl
          simp only [Bool.and_eq_true, List.isPrefixOf_iff_prefix] at h2
          obtain ⟨⟨t, rfl⟩, _⟩ := h2
          simp only [List.singleton_append, List.length_cons] at hl
          have : t = [] := List.length_eq_zero_iff.1 (by omega)
          exact hv (by simp [this])
        rw [if_neg hlen]
      · rw [if_neg h2, if_neg h2]
        by_cases h3 : ['%'].isPrefixOf v = true
        · rw [if_pos h3, if_pos h3]
        · rw [if_neg h3, if_neg h3]
          by_cases h4 : ['%'].isSuffixOf v = true
          · rw [if_pos h4, if_pos h4]
          · rw [if_neg h4, if_neg h4]; rfl
    · rw [if_neg h1, if_neg h1]
      simp only [decide_eq_true_eq]

theorem matchesOne_iff (v s : List Char) (hv : v ≠ ['%']) : matchesOne v s = true ↔ Matches v s := by
  unfold matchesOne Matches
  by_cases h1 : strContains ['%'] v = true
  · rw [if_pos h1]
    have hmem := (strContains_percent v).1 h1
    by_cases hp : ['%'].isPrefixOf v = true
    · have hp' := hp
      rw [List.isPrefixOf_iff_prefix] at hp'
      obtain ⟨t, rfl⟩ := hp'
      simp only [List.singleton_append] at *
      by_cases hs : ['%'].isSuffixOf ('%' :: t) = true
      · rw [if_pos (by simp [hp, hs]), strContains_iff]
        rw [List.isSuffixOf_iff_suffix] at hs
        obtain ⟨u, hu⟩ := hs
        cases u with
        | nil => exact absurd (by simpa using hu.symm) hv
        | cons c u =>
          simp only [List.cons_append, List.cons.injEq] at hu
          obtain ⟨rfl, rfl⟩ := hu
          have he : (('%' :: (u ++ ['%'])).take (('%' :: (u ++ ['%'])).length - 1)).drop 1 = u := by simp
          rw [he]
          constructor
          · intro h; exact .inr (.inl ⟨u, rfl, h⟩)
          · rintro (⟨h, _⟩ | ⟨x, hx, h⟩ | ⟨x, hx, h⟩ | ⟨x, hx, h⟩)
            · exact absurd hmem h
            · simp only [List.cons.injEq, true_and, List.append_cancel_right_eq] at hx
              rw [hx]; exact h
            · simp only [List.cons.injEq, true_and] at hx
              rw [← hx] at h
              exact ((List.prefix_append u ['%']).isInfix).trans h.isInfix
            · rw [← List.cons_append, List.append_cancel_right_eq] at hx
              rw [← hx] at h
              exact ((List.suffix_cons '%' u).isInfix).trans h.isInfix
      · rw [if_neg (by simp [hs]), if_pos hp, List.isSuffixOf_iff_suffix]
        rw [List.isSuffixOf_iff_suffix] at hs
        constructor
        · intro h; exact .inr (.inr (.inl ⟨t, rfl, h⟩))
        · rintro (⟨h, _⟩ | ⟨x, hx, h⟩ | ⟨x, hx, h⟩ | ⟨x, hx, h⟩)
          · exact absurd hmem h
          · exact absurd ⟨'%' :: x, by rw [hx]; rfl⟩ hs
          · simp only [List.cons.injEq, true_and] at hx
            rw [hx]; exact h
          · exact absurd ⟨x, hx.symm⟩ hs
    · rw [if_neg (by simp [hp]), if_neg hp]
      have hnp : ∀ x, v ≠ '%' :: x := by
        rintro x rfl
        exact hp (by simp)
      by_cases hs : ['%'].isSuffixOf v = true
      · rw [if_pos hs, List.isPrefixOf_iff_prefix]
        rw [List.isSuffixOf_iff_suffix] at hs
        obtain ⟨u, rfl⟩ := hs
        have he : (u ++ ['%']).take ((u ++ ['%']).length - 1) = u := by simp
        rw [he]
        constructor
        · intro h; exact .inr (.inr (.inr ⟨u, rfl, h⟩))
        · rintro (⟨h, _⟩ | ⟨x, hx, h⟩ | ⟨x, hx, h⟩ | ⟨x, hx, h⟩)
          · exact absurd hmem h
          · exact absurd hx (hnp _)
          · exact absurd hx (hnp _)
          · rw [List.append_cancel_right_eq] at hx
            rw [hx]; exact h
      · rw [if_neg hs]
        rw [List.isSuffixOf_iff_suffix] at hs
        simp only [Bool.false_eq_true, false_iff]
        rintro (⟨h, _⟩ | ⟨x, hx, h⟩ | ⟨x, hx, h⟩ | ⟨x, hx, h⟩)
        · exact absurd hmem h
        · exact absurd hx (hnp _)
        · exact absurd hx (hnp _)
        · exact absurd ⟨x, hx.symm⟩ hs
  · rw [if_neg h1]
    have hmem : '%' ∉ v := fun h => h1 ((strContains_percent v).2 h)
    simp only [decide_eq_true_eq]
    constructor
    · intro h; exact .inl ⟨hmem, h⟩
    · rintro (⟨_, h⟩ | ⟨x, hx, h⟩ | ⟨x, hx, h⟩ | ⟨x, hx, h⟩)
      · exact h
      · exact absurd (by rw [hx]; simp) hmem
      · exact absurd (by rw [hx]; simp) hmem
      · exact absurd (by rw [hx]; simp) hmem

/-- C69: without the pattern "%", `In` ends normally and is true exactly if some pattern matches.
Missing: lists containing "%" (`C69_single_percent_violated`). -/
theorem C69_in_partial (s : List Char) (arr : List (List Char)) (hno : ['%'] ∉ arr) :
    (strIn s arr = .ok true ∧ ∃ p ∈ arr, Matches p s) ∨ (strIn s arr = .ok false ∧ ¬ ∃ p ∈ arr, Matches p s) := by
  induction arr with
  | nil => exact .inr ⟨rfl, by simp⟩
  | cons v vs ih =>
    have hv : v ≠ ['%'] := fun h => hno (by simp [h])
    have ih := ih (fun h => hno (List.mem_cons_of_mem _ h))
    rw [strIn_cons, if_neg hv]
    by_cases hm : matchesOne v s = true
    · rw [if_pos hm]
      exact .inl ⟨rfl, v, by simp, (matchesOne_iff v s hv).1 hm⟩
    · rw [if_neg hm]
      have hm' : ¬ Matches v s := fun h => hm ((matchesOne_iff v s hv).2 h)
      rcases ih with ⟨h1, p, hp, h2⟩ | ⟨h1, h2⟩
      · exact .inl ⟨h1, p, by simp [hp], h2⟩
      · refine .inr ⟨h1, ?_⟩
        rintro ⟨p, hp, h⟩
        rcases List.mem_cons.1 hp with rfl | hp
        · exact hm' h
        · exact h2 ⟨p, hp, h⟩

example : strIn "tcp4".toList ["%x%".toList, "a%b".toList, "tcp%".toList] = .ok true := by decide
example : strIn "tcp4".toList ["%x%".toList, "a%b".toList, "%5".toList] = .ok false := by decide

/-- C69 is violated by the pattern "%" (`x%` or `%x` with empty `x`, matching everything): `In` panics exactly when it is reached. -/
theorem C69_single_percent_violated (s : List Char) (arr : List (List Char)) :
    Matches ['%'] s ∧ (strIn s arr = .panic ↔ ∃ pre post, arr = pre ++ ['%'] :: post ∧ ['%'] ∉ pre ∧ ∀ p ∈ pre, ¬ Matches p s) := by
  refine ⟨.inr (.inr (.inl ⟨[], rfl, List.nil_suffix⟩)), ?_⟩
  induction arr with
  | nil => simp [strIn]
  | cons v vs ih =>
    rw [strIn_cons]
    by_cases hv : v = ['%']
    · subst hv
      rw [if_pos rfl]
      exact ⟨fun _ => ⟨[], vs, rfl, by simp, by simp⟩, fun _ => rfl⟩
    · rw [if_neg hv]
      by_cases hm : matchesOne v s = true
      · rw [if_pos hm]
        refine ⟨fun h => (by cases h), ?_⟩
        rintro ⟨pre, post, he, _, hn⟩
        cases pre with
        | nil => simp only [List.nil_append, List.cons.injEq] at he; exact absurd he.1 hv
        | cons p pre =>
          simp only [List.cons_append, List.cons.injEq] at he
          obtain ⟨rfl, _⟩ := he
          exact absurd ((matchesOne_iff v s hv).1 hm) (hn v (by simp))
      · rw [if_neg hm, ih]
        have hm' : ¬ Matches v s := fun h => hm ((matchesOne_iff v s hv).2 h)
        constructor
        · rintro ⟨pre, post, rfl, h1, h2⟩
          refine ⟨v :: pre, post, rfl, ?_, ?_⟩
          · intro h
            rcases List.mem_cons.1 h with h | h
            · exact hv h.symm
            · exact h1 h
          · intro p hp
            rcases List.mem_cons.1 hp with rfl | hp
            · exact hm'
            · exact h2 p hp
        · rintro ⟨pre, post, he, h1, h2⟩
          cases pre with
          | nil => simp only [List.nil_append, List.cons.injEq] at he; exact absurd he.1 hv
          | cons p pre =>
            simp only [List.cons_append, List.cons.injEq] at he
            obtain ⟨_, rfl⟩ := he
            exact ⟨pre, post, rfl, fun h => h1 (by simp [h]), fun q hq => h2 q (by simp [hq])⟩

example : strIn "x".toList ["y".toList, "%".toList] = .panic := by decide

/-! ## C68: choice of transport -/

theorem strIn_bool (s : List Char) (arr : List (List Char)) (hno : ['%'] ∉ arr) :
    ∃ b, strIn s arr = .ok b ∧ (b = true ↔ ∃ p ∈ arr, Matches p s) := by
  rcases C69_in_partial s arr hno with ⟨h1, h2⟩ | ⟨h1, h2⟩
  · exact ⟨true, h1, by simp [h2]⟩
  · refine ⟨false, h1, ?_⟩
    simp only [Bool.false_eq_true, false_iff]
    exact h2

theorem matches_plain {p s : List Char} (h : '%' ∉ p) : Matches p s ↔ s = p := by
  unfold Matches
  constructor
  · rintro (⟨_, rfl⟩ | ⟨x, hx, _⟩ | ⟨x, hx, _⟩ | ⟨x, hx, _⟩)
    · rfl
    · exact absurd (by rw [hx]; simp) h
    · exact absurd (by rw [hx]; simp) h
    · exact absurd (by rw [hx]; simp) h
  · rintro rfl; exact .inl ⟨h, rfl⟩

theorem matches_ip {s : List Char} : Matches "ip%".toList s ↔ "ip".toList <+: s := by
  unfold Matches
  constructor
  · rintro (⟨h, _⟩ | ⟨x, hx, _⟩ | ⟨x, hx, _⟩ | ⟨x, hx, h⟩)
    · exact absurd (by decide) h
    · simp at hx
    · simp at hx
    · have : x = "ip".toList := by
        have : "ip".toList ++ ['%'] = x ++ ['%'] := hx
        exact (List.append_cancel_right this).symm
      rw [this] at h; exact h
  · intro h; exact .inr (.inr (.inr ⟨_, rfl, h⟩))

/-- C68: `ListenAndServe` serves TCP for exactly the five stream networks, UDP for exactly the four datagram networks and names
starting with "ip", and refuses every other name with an error. -/
theorem C68_transport (n : List Char) :
    ∃ t, transportOf n = .ok t ∧
      (t = .tcp ↔ n ∈ ["tcp".toList, "tcp4".toList, "tcp6".toList, "unix".toList, "unixpacket".toList]) ∧
      (t = .udp ↔ n ∈ ["udp".toList, "udp4".toList, "udp6".toList, "unixgram".toList] ∨ "ip".toList <+: n) := by
  obtain ⟨b1, h1, i1⟩ := strIn_bool n ["tcp".toList, "tcp4".toList, "tcp6".toList, "unix".toList, "unixpacket".toList] (by decide)
  obtain ⟨b2, h2, i2⟩ := strIn_bool n ["udp".toList, "udp4".toList, "udp6".toList, "unixgram".toList, "ip%".toList] (by decide)
  obtain ⟨b3, h3, _⟩ := strIn_bool n ["kcp".toList] (by decide)
  have j1 : b1 = true ↔ n ∈ ["tcp".toList, "tcp4".toList, "tcp6".toList, "unix".toList, "unixpacket".toList] := by
    rw [i1]
    have : ∀ p ∈ ["tcp".toList, "tcp4".toList, "tcp6".toList, "unix".toList, "unixpacket".toList], '%' ∉ p := by decide
    constructor
    · rintro ⟨p, hp, hm⟩
      rw [(matches_plain (this p hp)).1 hm]; exact hp
    · intro h; exact ⟨n, h, (matches_plain (this n h)).2 rfl⟩
  have j2 : b2 = true ↔ n ∈ ["udp".toList, "udp4".toList, "udp6".toList, "unixgram".toList] ∨ "ip".toList <+: n := by
    rw [i2]
    have : ∀ p ∈ ["udp".toList, "udp4".toList, "udp6".toList, "unixgram".toList], '%' ∉ p := by decide
    constructor
    · rintro ⟨p, hp, hm⟩
      by_cases hpi : p = "ip%".toList
      · rw [hpi] at hm; exact .inr (matches_ip.1 hm)
      · have hp' : p ∈ ["udp".toList, "udp4".toList, "udp6".toList, "unixgram".toList] := by
          simp only [List.mem_cons, List.not_mem_nil, or_false] at hp ⊢
          rcases hp with h | h | h | h | h
          · exact .inl h
          · exact .inr (.inl h)
          · exact .inr (.inr (.inl h))
          · exact .inr (.inr (.inr h))
          · exact absurd h hpi
        left
        rw [(matches_plain (this p hp')).1 hm]; exact hp'
    · rintro (h | h)
      · refine ⟨n, ?_, (matches_plain (this n h)).2 rfl⟩
        simp only [List.mem_cons, List.not_mem_nil, or_false] at h ⊢
        rcases h with h | h | h | h
        · exact .inl h
        · exact .inr (.inl h)
        · exact .inr (.inr (.inl h))
        · exact .inr (.inr (.inr (.inl h)))
      · exact ⟨"ip%".toList, by simp, matches_ip.2 h⟩
  have hdis : b1 = true → ¬ (n ∈ ["udp".toList, "udp4".toList, "udp6".toList, "unixgram".toList] ∨ "ip".toList <+: n) := by
    intro h
    have := j1.1 h
    simp only [List.mem_cons, List.not_mem_nil, or_false] at this
    rcases this with rfl | rfl | rfl | rfl | rfl <;> decide
  unfold transportOf
  rw [h1, h2, h3]
  cases b1 with
  | true =>
    refine ⟨.tcp, rfl, (by rw [← j1]; simp), ?_⟩
    simp only [reduceCtorEq, false_iff]
    exact hdis rfl
  | false =>
    cases b2 with
    | true => exact ⟨.udp, rfl, (by rw [← j1]; simp), (by rw [← j2]; simp)⟩
    | false => exact ⟨.refused, by cases b3 <;> rfl, (by rw [← j1]; simp), (by rw [← j2]; simp)⟩

example : transportOf "unixgram".toList = .ok .udp ∧ transportOf "ip4:icmp".toList = .ok .udp ∧
    transportOf "kcp".toList = .ok .refused ∧ transportOf "TCP".toList = .ok .refused := by decide

/-! ## C70: `ClientIP` -/

theorem splitChar_none (c : Char) (l : List Char) (h : c ∉ l) : splitChar c l = [l] := by
  induction l with
  | nil => rfl
  | cons a l ih =>
    simp only [List.mem_cons, not_or] at h
    simp only [splitChar, if_neg (Ne.symm h.1), ih h.2]

theorem splitChar_append (c : Char) (l m : List Char) (h : c ∉ l) : splitChar c (l ++ c :: m) = l :: splitChar c m := by
  induction l with
  | nil => simp [splitChar]
  | cons a l ih =>
    simp only [List.mem_cons, not_or] at h
    simp only [List.cons_append, splitChar, if_neg (Ne.symm h.1), ih h.2]

theorem splitChar_length (c : Char) (l : List Char) : (splitChar c l).length = l.count c + 1 := by
  induction l with
  | nil => rfl
  | cons a l ih =>
    simp only [splitChar]
    by_cases h : a = c
    · rw [if_pos h, List.length_cons, ih, h, List.count_cons_self]
    · rw [if_neg h, List.count_cons_of_ne h]
      cases hs : splitChar c l with
      | nil => rw [hs] at ih; simp at ih
      | cons w ws => rw [hs] at ih; simpa using ih

/-- C70 for IPv4 peers: the host part.  Missing: IPv6 peers (`C70_ipv6_violated`). -/
theorem C70_ipv4_partial (host port : List Char) (hh : ':' ∉ host) (hp : ':' ∉ port) : clientIP (ipv4Text host port) = host := by
  unfold clientIP ipv4Text
  rw [splitChar_append _ _ _ hh, splitChar_none _ _ hp]
  rfl

example : clientIP "192.168.0.7:50311".toList = "192.168.0.7".toList := by decide

/-- C70 is violated for every IPv6 peer: the result is always 127.0.0.1. -/
theorem C70_ipv6_violated (host port : List Char) (hh : ':' ∈ host) :
    clientIP (ipv6Text host port) = "127.0.0.1".toList ∧ clientIP (ipv6Text host port) ≠ host := by
  have h : clientIP (ipv6Text host port) = "127.0.0.1".toList := by
    have hlen : (splitChar ':' (ipv6Text host port)).length ≠ 2 := by
      rw [splitChar_length, ipv6Text]
      have := List.count_pos_iff.2 hh
      simp only [List.count_cons, List.count_append]
      simp
      omega
    have h1 : strContains ['['] (ipv6Text host port) = true := by
      rw [strContains_iff, singleton_infix]; simp [ipv6Text]
    have h2 : strContains [']'] (ipv6Text host port) = true := by
      rw [strContains_iff, singleton_infix]; simp [ipv6Text]
    unfold clientIP
    simp only [if_neg hlen, h1, h2, Bool.and_self, if_true]
  refine ⟨h, ?_⟩
  rw [h]
  rintro rfl
  exact absurd hh (by decide)

example : clientIP "[2001:db8::1]:50311".toList = "127.0.0.1".toList := by decide

theorem splitChar_snoc (c : Char) (l m : List Char) (h : c ∉ m) : splitChar c (l ++ c :: m) = splitChar c l ++ [m] := by
  induction l with
  | nil =>
    have := splitChar_none c m h
    simp [splitChar, this]
  | cons a l ih =>
    simp only [List.cons_append, splitChar]
    by_cases ha : a = c
    · rw [if_pos ha, if_pos ha, ih]; rfl
    · rw [if_neg ha, if_neg ha, ih]
      cases hs : splitChar c l with
      | nil => exact absurd (congrArg List.length hs) (by rw [splitChar_length]; simp)
      | cons w ws => rfl

theorem join_splitChar (l : List Char) : joinColon (splitChar ':' l) = l := by
  induction l with
  | nil => rfl
  | cons a l ih =>
    simp only [splitChar]
    cases hs : splitChar ':' l with
    | nil => exact absurd (congrArg List.length hs) (by rw [splitChar_length]; simp)
    | cons w ws =>
      rw [hs] at ih
      by_cases ha : a = ':'
      · rw [if_pos ha, ha]
        have : joinColon ([] :: w :: ws) = ':' :: joinColon (w :: ws) := by simp [joinColon, List.intercalate, List.intersperse]
        rw [this, ih]
      · rw [if_neg ha]
        have : joinColon ((a :: w) :: ws) = a :: joinColon (w :: ws) := by
          cases ws <;> simp [joinColon, List.intercalate, List.intersperse]
        simp only [this, ih]

/-- C70 for addresses written without brackets, with any number of colons in the host: the part before the last colon.  (Package net
puts brackets around such hosts, so only connections of other kinds have such addresses.)
Missing: as for `C70_ipv4_partial`. -/
theorem C70_unbracketed_partial (host port : List Char) (hp : ':' ∉ port) (hb : '[' ∉ host ++ port ∨ ']' ∉ host ++ port) :
    clientIP (host ++ ':' :: port) = host := by
  have hn : (strContains ['['] (host ++ ':' :: port) && strContains [']'] (host ++ ':' :: port)) = false := by
    rw [Bool.and_eq_false_iff]
    rcases hb with h | h
    · left
      rw [Bool.eq_false_iff, Ne, strContains_iff, singleton_infix]
      simpa using h
    · right
      rw [Bool.eq_false_iff, Ne, strContains_iff, singleton_infix]
      simpa using h
  unfold clientIP
  simp only [splitChar_snoc ':' host port hp, hn, Bool.false_eq_true, if_false]
  split
  · rename_i hl
    have : (splitChar ':' host).length = 1 := by simp at hl; omega
    match hs : splitChar ':' host, this with
    | [w], _ =>
      have := join_splitChar host
      rw [hs] at this
      simpa [joinColon, List.intercalate] using this
  · simp only [List.length_append, List.length_singleton, Nat.add_sub_cancel, List.take_left, join_splitChar]

example : ':' ∉ "50311".toList ∧ '[' ∉ "fe80::1".toList ++ "50311".toList ∧ clientIP "fe80::1:50311".toList = "fe80::1".toList := by decide

/-- C70, a caveat: on a connection whose address has no port (a unix socket) the result is empty. -/
theorem C70_unix_limit (addr : List Char) (hc : ':' ∉ addr) (hb : '[' ∉ addr ∨ ']' ∉ addr) : clientIP addr = [] := by
  have hn : (strContains ['['] addr && strContains [']'] addr) = false := by
    rw [Bool.and_eq_false_iff]
    rcases hb with h | h
    · left; rw [Bool.eq_false_iff, Ne, strContains_iff, singleton_infix]; exact h
    · right; rw [Bool.eq_false_iff, Ne, strContains_iff, singleton_infix]; exact h
  unfold clientIP
  simp only [splitChar_none ':' addr hc, hn]
  rfl

example : ':' ∉ "/tmp/server.sock".toList ∧ '[' ∉ "/tmp/server.sock".toList := by decide

/-! ## C71: message headers -/

section
variable {V : Type}

/-- The value of a key after a sequence of `Set` calls on an initial header: that of the last call with this key. -/
def Spec.lastValue (initial : String → Any) : List (String × Any) → String → Any
  | [], k => initial k
  | (k', v) :: sets, k => Spec.lastValue (fun q => if q = k' then v else initial q) sets k

/-- A sequence of `Set` calls. -/
def setAll (msg : Message V) : List (String × Any) → Res (Message V)
  | [] => .ok msg
  | (k, v) :: sets => do
    let msg ← msg.set k v
    setAll msg sets

/-- C71: on a message with a header every sequence of `Set` calls works, `Get` of every key then gives the last value set for that key
(else what was there before, nil if nothing), and id and body are untouched.
Missing: messages with a nil header (`C71_nil_header_violated`). -/
theorem C71_get_set_partial (sets : List (String × Any)) : ∀ (msg : Message V), msg.header ≠ none →
    ∃ msg', setAll msg sets = .ok msg' ∧ (∀ k, msg'.get k = lastValue msg.get sets k) ∧ msg'.id = msg.id ∧ msg'.body = msg.body := by
  induction sets with
  | nil => intro msg _; exact ⟨msg, rfl, fun _ => rfl, rfl, rfl⟩
  | cons kv sets ih =>
    intro msg h
    obtain ⟨k, v⟩ := kv
    cases hm : msg.header with
    | none => exact absurd hm h
    | some m =>
      have hset : msg.set k v = .ok { msg with header := some (GoMap.set m k v) } := by simp [Message.set, hm]
      obtain ⟨msg', h1, h2, h3, h4⟩ := ih { msg with header := some (GoMap.set m k v) } (by simp)
      refine ⟨msg', by simp [setAll, hset, h1], ?_, h3, h4⟩
      intro q
      rw [h2 q, lastValue]
      congr 1
      funext r
      simp only [Message.get, hm, GoMap.get?_set]
      by_cases hr : r = k
      · rw [if_pos hr, if_pos hr]; rfl
      · rw [if_neg hr, if_neg hr]

/-- C71: `Get` on a nil header, and of an absent key, is nil. -/
theorem C71_get_absent (msg : Message V) (k : String) (h : msg.header.get? k = none) : msg.get k = .null := by
  unfold Message.get
  cases hm : msg.header with
  | none => rfl
  | some m =>
    rw [hm] at h
    have h : GoMap.get? m k = none := h
    simp [h]

/-- C71 is violated for every message with a nil header, such as one received without header: `Set` panics. -/
theorem C71_nil_header_violated (msg : Message V) (h : msg.header = none) (k : String) (v : Any) : msg.set k v = .panic := by
  simp [Message.set, h]

example : ((newMessage 7 none : Message Bytes).set "a" (.num 1)) ≠ .panic := by simp [newMessage, Message.set]

end
end Tcpx
