import Verif.Spec.Json
/-! # JSON texts (RFC 8259) and the strings their literals stand for -/
namespace Verif

/-- White space: space, tab, line feed, carriage return -/
def Blank (s : Bytes) : Prop := ∀ c ∈ s, c = 32 ∨ c = 9 ∨ c = 10 ∨ c = 13

/-- One or more digits -/
def DigitSeq (s : Bytes) : Prop := s ≠ [] ∧ ∀ c ∈ s, c ∈ asc "0123456789"

/-- Numbers (RFC 8259, section 6): sign, integer without superfluous zeros, fraction, exponent -/
def NumLit (l : Bytes) : Prop := ∃ sign int frac exp, l = sign ++ (int ++ (frac ++ exp)) ∧ (sign = [] ∨ sign = asc "-") ∧
  (int = asc "0" ∨ (DigitSeq int ∧ int.head? ≠ some 48)) ∧ (frac = [] ∨ ∃ ds, DigitSeq ds ∧ frac = 46 :: ds) ∧
  (exp = [] ∨ ∃ e s ds, (e = 101 ∨ e = 69) ∧ (s = [] ∨ s = asc "+" ∨ s = asc "-") ∧ DigitSeq ds ∧ exp = e :: (s ++ ds))

mutual
/-- The texts of a document without white space around them; brackets are nested at most n deep. -/
inductive JText : Nat → JVal → Bytes → Prop
  | null (n : Nat) : JText n .null (asc "null")
  | true (n : Nat) : JText n (.bool true) (asc "true")
  | false (n : Nat) : JText n (.bool false) (asc "false")
  | num (n : Nat) (l : Bytes) : NumLit l → JText n (.num l) l
  | str (n : Nat) (l : Bytes) : StrLit l → JText n (.str l) (34 :: (l ++ [34]))
  | empty (n : Nat) (a : Bytes) : Blank a → JText (n + 1) (.arr []) (91 :: (a ++ [93]))
  | arr (n : Nat) (xs : List JVal) (t : Bytes) : JElems n xs t → JText (n + 1) (.arr xs) (91 :: (t ++ [93]))
  | void (n : Nat) (a : Bytes) : Blank a → JText (n + 1) (.obj []) (123 :: (a ++ [125]))
  | obj (n : Nat) (ms : List (Bytes × JVal)) (t : Bytes) : JMembers n ms t → JText (n + 1) (.obj ms) (123 :: (t ++ [125]))
/-- One or more values with commas between them and white space around each -/
inductive JElems : Nat → List JVal → Bytes → Prop
  | one (n : Nat) (x : JVal) (a t b : Bytes) : Blank a → JText n x t → Blank b → JElems n [x] (a ++ (t ++ b))
  | more (n : Nat) (x : JVal) (xs : List JVal) (a t b ts : Bytes) : Blank a → JText n x t → Blank b → JElems n xs ts → JElems n (x :: xs) (a ++ (t ++ (b ++ 44 :: ts)))
/-- One or more members -/
inductive JMembers : Nat → List (Bytes × JVal) → Bytes → Prop
  | one (n : Nat) (k : Bytes) (x : JVal) (a b c t d : Bytes) : Blank a → StrLit k → Blank b → Blank c → JText n x t → Blank d →
      JMembers n [(k, x)] (a ++ 34 :: (k ++ 34 :: (b ++ 58 :: (c ++ (t ++ d)))))
  | more (n : Nat) (k : Bytes) (x : JVal) (ms : List (Bytes × JVal)) (a b c t d ts : Bytes) : Blank a → StrLit k → Blank b → Blank c → JText n x t → Blank d →
      JMembers n ms ts → JMembers n ((k, x) :: ms) (a ++ 34 :: (k ++ 34 :: (b ++ 58 :: (c ++ (t ++ (d ++ 44 :: ts))))))
end

/-- A hexadecimal digit of value n -/
def HexVal (c : UInt8) (n : Nat) : Prop := (asc "0123456789abcdef")[n]? = some c ∨ (asc "0123456789ABCDEF")[n]? = some c
/-- The number of four hexadecimal digits -/
def Hex4 (a b c d : UInt8) (r : Nat) : Prop := ∃ w x y z, HexVal a w ∧ HexVal b x ∧ HexVal c y ∧ HexVal d z ∧ r = ((w * 16 + x) * 16 + y) * 16 + z

/-- The string a literal stands for (RFC 8259, section 7), in UTF-8 -/
inductive LitMeans : Bytes → Bytes → Prop
  | nil : LitMeans [] []
  | char (r : Nat) (c l s : Bytes) : Utf8Char r c → 32 ≤ r → r ≠ 34 → r ≠ 92 → LitMeans l s → LitMeans (c ++ l) (c ++ s)
  | esc (e b : UInt8) (l s : Bytes) : (e, b) ∈ [((98 : UInt8), (8 : UInt8)), (102, 12), (110, 10), (114, 13), (116, 9), (92, 92), (47, 47), (34, 34)] → LitMeans l s →
      LitMeans (92 :: e :: l) (b :: s)
  | code (a b c d : UInt8) (r : Nat) (u l s : Bytes) : Hex4 a b c d r → Utf8Char r u → LitMeans l s → LitMeans (92 :: 117 :: a :: b :: c :: d :: l) (u ++ s)
  | pair (a b c d a' b' c' d' : UInt8) (hi lo : Nat) (u l s : Bytes) : Hex4 a b c d (0xD800 + hi) → Hex4 a' b' c' d' (0xDC00 + lo) → hi < 1024 → lo < 1024 →
      Utf8Char (0x10000 + 1024 * hi + lo) u → LitMeans l s → LitMeans (92 :: 117 :: a :: b :: c :: d :: 92 :: 117 :: a' :: b' :: c' :: d' :: l) (u ++ s)

end Verif
