import Verif.Spec.JSONLaw
/-!
A concrete header codec satisfying `JSONCodec.Lawful`; used only to show that hypotheses are satisfiable.
(It is not JSON text: numbers and characters are written in unary, everything is length-prefixed.)
-/
namespace Tcpx.Demo

def encNat (n : Nat) : Bytes := List.replicate n 1 ++ [0]

def decNat : Bytes → Option (Nat × Bytes)
  | [] => none
  | b :: r => if b = 0 then some (0, r) else (decNat r).map (fun p => (p.1 + 1, p.2))

theorem dec_enc_nat (n : Nat) (r : Bytes) : decNat (encNat n ++ r) = some (n, r) := by
  induction n with
  | zero => simp [encNat, decNat]
  | succ n ih =>
    have : encNat (n+1) ++ r = 1 :: (encNat n ++ r) := by simp [encNat, List.replicate_succ]
    rw [this, decNat, ih]; simp

def encList {α : Type} (f : α → Bytes) : List α → Bytes
  | [] => []
  | a :: l => f a ++ encList f l

def decList {α : Type} (g : Bytes → Option (α × Bytes)) : Nat → Bytes → Option (List α × Bytes)
  | 0, r => some ([], r)
  | n+1, r => do
    let (a, r) ← g r
    let (l, r) ← decList g n r
    some (a :: l, r)

theorem dec_enc_list {α : Type} {f : α → Bytes} {g} (h : ∀ a r, g (f a ++ r) = some (a, r)) (l : List α) (r : Bytes) :
    decList g l.length (encList f l ++ r) = some (l, r) := by
  induction l with
  | nil => rfl
  | cons a l ih =>
    simp [encList, decList, List.append_assoc, h, ih]

def encL {α : Type} (f : α → Bytes) (l : List α) : Bytes := encNat l.length ++ encList f l
def decL {α : Type} (g : Bytes → Option (α × Bytes)) (b : Bytes) : Option (List α × Bytes) := do
  let (n, r) ← decNat b
  decList g n r

theorem dec_enc_L {α : Type} {f : α → Bytes} {g} (h : ∀ a r, g (f a ++ r) = some (a, r)) (l : List α) (r : Bytes) :
    decL g (encL f l ++ r) = some (l, r) := by
  simp [encL, decL, dec_enc_nat, dec_enc_list h]

def encStr (s : String) : Bytes := encL (fun c => encNat c.toNat) s.toList
def decStr (b : Bytes) : Option (String × Bytes) :=
  (decL (fun b => (decNat b).map (fun p => (Char.ofNat p.1, p.2))) b).map (fun p => (String.ofList p.1, p.2))

theorem dec_enc_str (s : String) (r : Bytes) : decStr (encStr s ++ r) = some (s, r) := by
  unfold decStr encStr
  rw [dec_enc_L]
  · simp
  · intro c r; rw [dec_enc_nat]; simp [Char.ofNat_toNat]

def encAny : Any → Bytes
  | .str s => encNat 0 ++ encStr s
  | .num (.ofNat n) => encNat 1 ++ encNat n
  | .num (.negSucc n) => encNat 2 ++ encNat n
  | .bool b => encNat 3 ++ encNat b.toNat
  | .null => encNat 4 ++ encNat 0
  | .other n => encNat 5 ++ encNat n

def decAny (b : Bytes) : Option (Any × Bytes) := do
  let (t, r) ← decNat b
  if t = 0 then
    let (s, r) ← decStr r
    some (.str s, r)
  else do
    let (n, r) ← decNat r
    match t with
    | 1 => some (.num (.ofNat n), r)
    | 2 => some (.num (.negSucc n), r)
    | 3 => some (.bool (n == 1), r)
    | 4 => some (.null, r)
    | _ => some (.other n, r)

theorem dec_enc_any (a : Any) (r : Bytes) : decAny (encAny a ++ r) = some (a, r) := by
  rcases a with s | (z | z) | b | _ | n
  all_goals simp [encAny, decAny, dec_enc_nat, dec_enc_str]
  cases b <;> rfl

def encEntry (e : String × Any) : Bytes := encStr e.1 ++ encAny e.2
def decEntry (b : Bytes) : Option ((String × Any) × Bytes) := do
  let (k, r) ← decStr b
  let (v, r) ← decAny r
  some ((k, v), r)

theorem dec_enc_entry (e : String × Any) (r : Bytes) : decEntry (encEntry e ++ r) = some (e, r) := by
  simp [encEntry, decEntry, dec_enc_str, dec_enc_any]

def encHeader : Header → Bytes
  | none => [110]
  | some m => 123 :: encL encEntry m

def decHeader : Bytes → Option Header
  | [] => none
  | b :: r =>
    if b = 110 then some none
    else (decL decEntry r).map (fun p => some p.1)

/-- A codec satisfying the assumptions made about `encoding/json`. -/
def json : JSONCodec := { marshal := fun h => some (encHeader h), unmarshal := decHeader }

theorem dec_enc_header (h : Header) : decHeader (encHeader h) = some h := by
  cases h with
  | none => simp [encHeader, decHeader]
  | some m =>
    have := dec_enc_L dec_enc_entry m []
    rw [List.append_nil] at this
    simp [encHeader, decHeader, this]

theorem json_lawful : json.Lawful where
  roundtrip := by
    intro h bs hb
    simp only [json, Option.some.injEq] at hb ⊢
    subst hb
    refine ⟨by cases h <;> simp [encHeader], h, dec_enc_header h, Iff.rfl, fun _ => rfl⟩
  nil_ok := rfl
  simple_ok := fun _ _ => rfl

/-- Values are byte strings, every marshaller is the identity, decoding overwrites the destination. -/
def env : Env Bytes := { json := json, enc := fun _ v => some v, dec := fun _ b _ => some b }

end Tcpx.Demo
