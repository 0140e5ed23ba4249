import Verif.Spec.Sending
import Verif.Lemmas.Codec
import Verif.Lemmas.ConnLoop
/-! # Lemmas about sending -/
namespace Tcpx
open Spec
variable {V : Type}

theorem pack_spec (env : Env V) (id : Int32) (header : Header) (body : Option V) (m : Marshaller V) (hb bb : Bytes)
    (h1 : env.json.marshal header = some hb)
    (h2 : (body = none ∧ bb = []) ∨ ∃ v, body = some v ∧ m.marshal v = some bb) (hs : payload hb bb < 2^32) :
    packWithMarshaller env { id := id, header := header, body := body } (some m) = .ok (Spec.frame id.toInt hb bb) := by
  rw [← frame_eq_spec _ _ _ hs]
  unfold packWithMarshaller
  simp only [h1, orErr, Res.bind_ok]
  rcases h2 with ⟨rfl, rfl⟩ | ⟨v, rfl, h⟩
  · simp
  · simp [h]

theorem pack_cases (env : Env V) (id : Int32) (header : Header) (body : Option V) (m : Marshaller V) :
    (∃ hb bb, env.json.marshal header = some hb ∧ ((body = none ∧ bb = []) ∨ ∃ v, body = some v ∧ m.marshal v = some bb) ∧
      packWithMarshaller env { id := id, header := header, body := body } (some m) = .ok (Tcpx.frame id hb bb)) ∨
    ((env.json.marshal header = none ∨ ∃ v, body = some v ∧ m.marshal v = none) ∧
      ∃ e, packWithMarshaller env { id := id, header := header, body := body } (some m) = .err e) := by
  unfold packWithMarshaller
  cases h1 : env.json.marshal header with
  | none => right; exact ⟨.inl rfl, _, by simp [orErr]; rfl⟩
  | some hb =>
    cases body with
    | none => left; exact ⟨hb, [], rfl, .inl ⟨rfl, rfl⟩, by simp [orErr]⟩
    | some v =>
      cases h2 : m.marshal v with
      | none => right; exact ⟨.inr ⟨v, rfl, h2⟩, _, by simp [orErr, h2]; rfl⟩
      | some bb => left; exact ⟨hb, bb, rfl, .inr ⟨v, rfl, h2⟩, by simp [orErr, h2]⟩

theorem groupHeader_eq (num : Nat) (first : Bool) :
    (if first then some [(PIPED, Any.str (enableMarker num))] else none : Header) = groupHeader num first := rfl

theorem bodyOf_eq (msg : PArg V) : bodyOf msg = msg.body := by cases msg <;> rfl

theorem pipeLoop_ok (env : Env V) (num : Nat) (args : List (PArg V)) (ps : List (Int × Option V)) (hw : WellTyped args ps) :
    ∀ (first : Bool) (fs : List Bytes), Frames env num first ps fs → (∀ f ∈ fs, f.length < 4 + 2^32) →
      pipeLoop env num first args = .ok fs.flatten := by
  induction hw with
  | nil => intro first fs hf _; cases hf; rfl
  | cons z v msg rest ps _ ih =>
    intro first fs hf hsz
    cases hf with
    | cons _ _ _ _ hb bb fs' h1 h2 h3 =>
      have hlen := hsz _ (List.mem_cons_self)
      rw [frame_length] at hlen
      have hp := pack_spec env (Int32.ofInt z) (groupHeader num first) msg.body (env.builtin .json) hb bb h1 (bodyOf_eq msg ▸ h2) (by omega)
      simp only [pipeLoop, groupHeader_eq, hp, ih false fs' h3 (fun f hf => hsz f (List.mem_cons_of_mem _ hf)), List.flatten_cons]

theorem pipeLoop_bad (env : Env V) (num : Nat) : ∀ (n : Nat) (args : List (PArg V)) (first : Bool), args.length = 2 * n →
    (∃ ps fs, WellTyped args ps ∧ Frames env num first ps fs) ∨ (∃ e, pipeLoop env num first args = .err e) ∨
    (pipeLoop env num first args = .panic ∧ NilId args) := by
  intro n
  induction n with
  | zero =>
    intro args first h
    have : args = [] := List.eq_nil_of_length_eq_zero (by omega)
    subst this
    exact .inl ⟨[], [], .nil, .nil _⟩
  | succ n ih =>
    intro args first h
    match args, h with
    | a :: msg :: rest, h =>
      have hl : rest.length = 2 * n := by simp at h; omega
      cases a with
      | nil => exact .inr (.inr ⟨rfl, .here _ _⟩)
      | val v => exact .inr (.inl ⟨_, rfl⟩)
      | int z v =>
        rcases pack_cases env (Int32.ofInt z) (groupHeader num first) msg.body (env.builtin .json) with
          ⟨hb, bb, h1, h2, h3⟩ | ⟨_, e, h3⟩
        · rcases ih rest false hl with ⟨ps, fs, i1, i2⟩ | ⟨e, i⟩ | ⟨i, i'⟩
          · exact .inl ⟨_, _, .cons z v msg rest ps i1, .cons first z (bodyOf msg) ps hb bb fs h1 (bodyOf_eq msg ▸ h2) i2⟩
          · refine .inr (.inl ⟨e, ?_⟩)
            simp only [pipeLoop, groupHeader_eq, h3, i]
          · refine .inr (.inr ⟨?_, .later _ _ _ i'⟩)
            simp only [pipeLoop, groupHeader_eq, h3, i]
        · refine .inr (.inl ⟨wrapErr e, ?_⟩)
          simp only [pipeLoop, groupHeader_eq, h3]

theorem wellTyped_length {args : List (PArg V)} {ps : List (Int × Option V)} (h : WellTyped args ps) : args.length = 2 * ps.length := by
  induction h with
  | nil => rfl
  | cons _ _ _ _ _ _ ih => simp [ih]; omega

theorem frames_length {env : Env V} {num : Nat} {first : Bool} {ps : List (Int × Option V)} {fs : List Bytes}
    (h : Frames env num first ps fs) : fs.length = ps.length := by
  induction h with
  | nil => rfl
  | cons _ _ _ _ _ _ _ _ _ _ ih => simp [ih]

theorem repr_digits (n : Nat) : Digits n.repr.toList n := by
  rw [Nat.toList_repr]
  refine ⟨Nat.toDigits_ne_nil, fun c hc => Nat.isDigit_of_mem_toDigits (by omega) (by omega) hc, ?_⟩
  have := Nat.ofDigitChars_ten_toDigits (n := n)
  rw [Nat.ofDigitChars_eq_foldl] at this
  exact this.symm

theorem repr_numeral (n : Nat) (h : n < 2^63) : Numeral n.repr.toList n :=
  ⟨by omega, by omega, n, n.repr.toList, repr_digits n, .inl ⟨rfl, rfl⟩⟩

/-- A frame packed from a decodable header has that header. -/
theorem frameHeader_frame (json : JSONCodec) (id : Int) (hb bb : Bytes) (hs : payload hb bb < 2^31 - 4) :
    frameHeader json (Spec.frame id hb bb) = json.unmarshal hb := by
  have hh := frame_header id hb bb [] (by omega)
  have h8 : declaredHeaderLen (Spec.frame id hb bb) = hb.length := by
    have := frame_field8 id hb bb [] (by omega)
    rw [List.append_nil] at this
    exact this
  rw [List.append_nil] at hh
  unfold frameHeader
  rw [h8, hh, frame_length]
  unfold payload at hs ⊢
  rw [if_neg (by omega)]

theorem frame_acceptable (max : Int) (id : Int) (hb bb : Bytes) (hs : payload hb bb < 2^31)
    (hm : 0 < max → (payload hb bb : Int) ≤ max) : Acceptable max (Spec.frame id hb bb) := by
  have h0 : declaredLength (Spec.frame id hb bb) = payload hb bb := by
    have := frame_field0 id hb bb [] (by omega)
    rw [List.append_nil] at this
    exact this
  refine ⟨?_, ?_, ?_, ?_⟩
  · rw [frame_length]; omega
  · rw [h0, frame_length]
  · rw [h0]; exact hs
  · rw [h0]; exact hm

theorem expected_group (kind : Bytes → Kind) : ∀ (gs : List Bytes) (m : Nat) (got : List Bytes), gs.length = m + 1 →
    expected kind (.inGroup (m + 1) got) gs = ([.group ((got ++ gs).map some)], .between) := by
  intro gs
  induction gs with
  | nil => intro m got h; simp at h
  | cons x xs ih =>
    intro m got h
    simp only [List.length_cons, Nat.add_right_cancel_iff] at h
    cases m with
    | zero =>
      have : xs = [] := List.eq_nil_of_length_eq_zero h
      subst this
      simp [expected]
    | succ m =>
      simp only [expected]
      rw [if_neg (by omega), Nat.add_sub_cancel, ih m (got ++ [x]) h]
      simp

end Tcpx
