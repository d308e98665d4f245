import Verif.Spec.Site

/-!
# JSON (RFC 8259)

The grammar, with what each text means. Escapes `\uXXXX` denote the character of that number (pairs of surrogates are not needed).
-/

namespace Txstatsd.Spec

/-- What a JSON text denotes. The members of an object are in the order of the text. -/
inductive JVal
  | num (q : ℚ)
  | str (s : Str)
  | arr (l : List JVal)
  | obj (l : List (Str × JVal))

/-- The number of a text of digits. -/
def decimal (s : Str) : ℕ := s.foldl (fun n c => 10 * n + (c.toNat - '0'.toNat)) 0

/-- Digits. -/
def Digits (s : Str) : Prop := s ≠ [] ∧ ∀ c ∈ s, c.isDigit = true

/-- `frac`: nothing, or a point and the digits `F`. -/
inductive Frac : Str → Str → Prop
  | none : Frac [] []
  | some (F : Str) (h : Digits F) : Frac ('.' :: F) F

/-- `exp`: nothing, or `e`, a sign perhaps, and digits. -/
inductive Expo : Str → ℤ → Prop
  | none : Expo [] 0
  | pos (e : Char) (X : Str) (he : e = 'e' ∨ e = 'E') (h : Digits X) : Expo (e :: X) (decimal X)
  | plus (e : Char) (X : Str) (he : e = 'e' ∨ e = 'E') (h : Digits X) : Expo (e :: '+' :: X) (decimal X)
  | minus (e : Char) (X : Str) (he : e = 'e' ∨ e = 'E') (h : Digits X) : Expo (e :: '-' :: X) (-(decimal X))

/-- A number without sign: digits without leading zero, `frac`, `exp`. -/
def Unsigned (t : Str) (q : ℚ) : Prop :=
  ∃ I f F x X, t = I ++ f ++ x ∧ Digits I ∧ (I.head? = some '0' → I = ['0']) ∧ Frac f F ∧ Expo x X ∧
    q = (decimal (I ++ F) : ℚ) * 10 ^ (X - F.length)

/-- `number`. -/
inductive JNumber : Str → ℚ → Prop
  | pos (t : Str) (q : ℚ) (h : Unsigned t q) : JNumber t q
  | neg (t : Str) (q : ℚ) (h : Unsigned t q) : JNumber ('-' :: t) (-q)

/-- The inside of a string. -/
inductive JChars : Str → Str → Prop
  | nil : JChars [] []
  | plain (c : Char) (t s : Str) (h1 : c ≠ '"') (h2 : c ≠ '\\') (h3 : 32 ≤ c.toNat) (h : JChars t s) : JChars (c :: t) (c :: s)
  | escape (e c : Char) (t s : Str) (he : (e, c) ∈ [('"', '"'), ('\\', '\\'), ('/', '/'), ('b', Char.ofNat 8), ('f', Char.ofNat 12),
      ('n', '\n'), ('r', '\r'), ('t', '\t')]) (h : JChars t s) : JChars ('\\' :: e :: t) (c :: s)
  | unicode (a b c d : Char) (x y z w : ℕ) (t s : Str) (ha : HexDigit a x) (hb : HexDigit b y) (hc : HexDigit c z) (hd : HexDigit d w)
      (h : JChars t s) : JChars ('\\' :: 'u' :: a :: b :: c :: d :: t) (Char.ofNat (4096 * x + 256 * y + 16 * z + w) :: s)

/-- `string`. -/
inductive JString : Str → Str → Prop
  | mk (t s : Str) (h : JChars t s) : JString ('"' :: (t ++ ['"'])) s

/-- `ws`. -/
def JWs (s : Str) : Prop := ∀ c ∈ s, c = ' ' ∨ c = '\t' ∨ c = '\n' ∨ c = '\r'

mutual
/-- `value` (the literals `true`, `false`, `null` are not needed). -/
inductive JValue : Str → JVal → Prop
  | num (t : Str) (q : ℚ) (h : JNumber t q) : JValue t (.num q)
  | str (t s : Str) (h : JString t s) : JValue t (.str s)
  | arr0 (w : Str) (h : JWs w) : JValue ('[' :: (w ++ [']'])) (.arr [])
  | arr (t : Str) (l : List JVal) (h : JElems t l) : JValue ('[' :: (t ++ [']'])) (.arr l)
  | obj0 (w : Str) (h : JWs w) : JValue ('{' :: (w ++ ['}'])) (.obj [])
  | obj (t : Str) (l : List (Str × JVal)) (h : JMembers t l) : JValue ('{' :: (t ++ ['}'])) (.obj l)
/-- The elements of an array. -/
inductive JElems : Str → List JVal → Prop
  | one (a t b : Str) (v : JVal) (ha : JWs a) (h : JValue t v) (hb : JWs b) : JElems (a ++ (t ++ b)) [v]
  | more (a t b r : Str) (v : JVal) (l : List JVal) (ha : JWs a) (h : JValue t v) (hb : JWs b) (hr : JElems r l) :
      JElems (a ++ (t ++ (b ++ ',' :: r))) (v :: l)
/-- The members of an object. -/
inductive JMembers : Str → List (Str × JVal) → Prop
  | one (a k b c t d : Str) (n : Str) (v : JVal) (ha : JWs a) (hk : JString k n) (hb : JWs b) (hc : JWs c) (h : JValue t v)
      (hd : JWs d) : JMembers (a ++ (k ++ (b ++ ':' :: (c ++ (t ++ d))))) [(n, v)]
  | more (a k b c t d r : Str) (n : Str) (v : JVal) (l : List (Str × JVal)) (ha : JWs a) (hk : JString k n) (hb : JWs b)
      (hc : JWs c) (h : JValue t v) (hd : JWs d) (hr : JMembers r l) :
      JMembers (a ++ (k ++ (b ++ ':' :: (c ++ (t ++ (d ++ ',' :: r)))))) ((n, v) :: l)
end

/-- `JSON-text`. -/
def JText (t : Str) (v : JVal) : Prop := ∃ a b u, t = a ++ (u ++ b) ∧ JWs a ∧ JWs b ∧ JValue u v

/-- The number `q` of a text is this one of the program: exactly for an integer, rounded to a float for a float. -/
inductive ReadsAs [Rounding] : ℚ → Num → Prop
  | int (z : ℤ) : ReadsAs z (.int z)
  | flt (q x : ℚ) (h : rnd q = .fin x) : ReadsAs q (.flt (.fin x))

/-- A number of Python that is not an infinity or nan (its floats are doubles). -/
inductive Finite [Rounding] : Num → Prop
  | int (z : ℤ) : Finite (.int z)
  | flt (q : ℚ) (h : rnd q = .fin q) : Finite (.flt (.fin q))

/-- The value of a JSON text shows the data of a page. The order of the members does not matter. -/
inductive Shows [Rounding] : JVal → Body → Prop
  | status (members : List (Str × JVal)) (f p : ℚ) (ok : Bool) (ft pt : Num) (i : ℤ)
      (hm : members.Perm [(c!"flush_time", .num f), (c!"process_time", .num p), (c!"flush_interval", .num i),
        (c!"status", .str (if ok then c!"OK" else c!"ERROR"))]) (hf : ReadsAs f ft) (hp : ReadsAs p pt) :
      Shows (.obj members) (.status ok ft pt i)
  | names (l : List Str) : Shows (.obj [(c!"names", .arr (l.map .str))]) (.names l)
  | timer (members : List (Str × JVal)) (scores : List ℕ) (bins : List ℚ) (hi lo : ℚ) (mx mn : PyFloat)
      (hm : members.Perm [(c!"histogram", .arr (bins.map .num)), (c!"max_value", .num hi), (c!"min_value", .num lo)])
      (hb : List.Forall₂ (fun q (n : ℕ) => ReadsAs q (.flt (.fin n))) bins scores) (hh : ReadsAs hi (.flt mx)) (hl : ReadsAs lo (.flt mn)) :
      Shows (.obj members) (.timer scores mx mn)

/-- A page with numbers only: no infinities, no nan, bins that a float can count. -/
inductive PlainPage [Rounding] : Body → Prop
  | status (ok : Bool) (ft pt : Num) (i : ℤ) (hf : Finite ft) (hp : Finite pt) : PlainPage (.status ok ft pt i)
  | names (l : List Str) : PlainPage (.names l)
  | timer (scores : List ℕ) (mx mn : PyFloat) (hs : ∀ n ∈ scores, n ≤ 2 ^ 53) (hx : Finite (.flt mx)) (hn : Finite (.flt mn)) :
      PlainPage (.timer scores mx mn)

/-- A decimal number with at most `n` significant digits. -/
def DecimalOf (n : ℕ) (z : ℚ) : Prop := ∃ m k : ℤ, |m| < 10 ^ n ∧ z = m * 10 ^ k

end Txstatsd.Spec
