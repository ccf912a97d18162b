import Mathlib.Data.Nat.Digits.Defs
import Mathlib.Data.Nat.Digits.Lemmas

/-!
# Model of `ink::Uri`  (/repo/ink/types/uri.h, /repo/ink/types/uri.cc)

Strings are lists of characters (one character per byte of the C++ string; no function below treats
two characters outside ASCII differently). `absl::StatusOr<T>` is `Option T`: error messages are
not modelled.
-/

set_option linter.dupNamespace false

namespace Verif.Uri

/-- uri.h:57-65 `Uri::AssetType`. -/
inductive AssetType where
  | uninitialized | brushFamily | texture
  deriving DecidableEq, Repr

/-- uri.h:147-150, the four fields and their default values. Equality (uri.h:168-172) compares all
four fields, which is Lean's structural equality. -/
structure Uri where
  regName : List Char := []
  assetName : List Char := []
  revision : Nat := 0
  assetType : AssetType := .uninitialized
  deriving DecidableEq, Repr

/-- uri.cc:36 -/
def kDefaultRevisionNumber : Nat := 1

/-- `absl::ascii_islower` -/
def isLower (c : Char) : Bool := 'a'.toNat ≤ c.toNat && c.toNat ≤ 'z'.toNat
/-- `absl::ascii_isdigit` -/
def isDigitC (c : Char) : Bool := '0'.toNat ≤ c.toNat && c.toNat ≤ '9'.toNat
/-- `absl::ascii_tolower` -/
def toLower (c : Char) : Char :=
  if 'A'.toNat ≤ c.toNat && c.toNat ≤ 'Z'.toNat then Char.ofNat (c.toNat + 32) else c

/-- uri.cc:38-41 -/
def isLowerOrHyphen (s : List Char) : Bool := s.all fun c => isLower c || c == '-'
/-- uri.cc:43-45 -/
def isDigit (s : List Char) : Bool := s.all isDigitC

/-- uri.cc:47-54. `min(find_first_of(delims, position), length) - position` is the number of
characters from `position` up to the first delimiter. -/
def distanceToNextDelimiterOrEnd (u : List Char) (position : Nat) (delims : List Char) : Nat :=
  ((u.drop position).takeWhile fun c => !delims.contains c).length

/-- `string_view::substr(start, length)` -/
def substr (u : List Char) (start length : Nat) : List Char := (u.drop start).take length

/-- uri.cc:56-62 -/
def firstPositionAfterScheme (u : List Char) : Nat :=
  if (u.take 4).map toLower == ['i', 'n', 'k', ':'] then 4 else 0

/-- uri.h:128-131 -/
structure PartRange where
  start : Nat := 0
  length : Nat := 0

/-- uri.cc:82-113. Returns the range and the new value of the in/out parameter `position`. -/
def parseRegNameIfPresent (u : List Char) (position : Nat) : Option (PartRange × Nat) :=
  if !['/', '/'].isPrefixOf (u.drop position) then some ({}, position)
  else
    let position := position + 2
    let range : PartRange := ⟨position, distanceToNextDelimiterOrEnd u position ['/', '?', '#']⟩
    let position := position + range.length
    let regName := substr u range.start range.length
    if regName.isEmpty then none
    else if !isLowerOrHyphen regName then none
    else some (range, position)

/-- uri.cc:115-149 -/
def parseAssetType (u : List Char) (position : Nat) : Option (PartRange × Nat) :=
  if !['/'].isPrefixOf (u.drop position) then none
  else
    let position := position + 1
    let range : PartRange := ⟨position, distanceToNextDelimiterOrEnd u position ['/', ':', '?', '#']⟩
    let position := position + range.length
    let assetType := substr u range.start range.length
    if assetType.isEmpty then none
    else if !isLowerOrHyphen assetType then none
    else some (range, position)

/-- uri.cc:151-189 -/
def parseAssetName (u : List Char) (position : Nat) : Option (PartRange × Nat) :=
  if (u.drop position).isEmpty then none
  else if ![':'].isPrefixOf (u.drop position) then none
  else
    let position := position + 1
    let range : PartRange := ⟨position, distanceToNextDelimiterOrEnd u position ['/', ':', '?', '#']⟩
    let position := position + range.length
    let assetName := substr u range.start range.length
    if assetName.isEmpty then none
    else if !isLowerOrHyphen assetName then none
    else some (range, position)

/-- uri.cc:191-233 -/
def parseRevisionIfPresent (u : List Char) (position : Nat) : Option (PartRange × Nat) :=
  if ![':'].isPrefixOf (u.drop position) then some ({}, position)
  else
    let position := position + 1
    let range : PartRange := ⟨position, distanceToNextDelimiterOrEnd u position ['/', ':', '?', '#']⟩
    let position := position + range.length
    let revision := substr u range.start range.length
    if revision.isEmpty then none
    else if !isDigit revision then none
    else if revision.head? == some '0' then none
    else if revision.length > 9 then none
    else some (range, position)

/-- `absl::SimpleAtoi` into an `int32_t`, for strings of digits (the only ones it is given):
fails on the empty string and on overflow. Signs and surrounding blanks are not modelled. -/
def simpleAtoi (s : List Char) : Option Nat :=
  if s.isEmpty || !isDigit s then none
  else
    let v := s.foldl (fun a c => 10 * a + (c.toNat - '0'.toNat)) 0
    if v ≤ 2147483647 then some v else none

/-- uri.cc:235-296 -/
def parse (u : List Char) : Option Uri :=
  if u.isEmpty then some {}
  else
    let position := firstPositionAfterScheme u
    if (u.drop position).isEmpty then none
    else if (u.drop position).head? != some '/' then none
    else do
      let (range, position) ← parseRegNameIfPresent u position
      let regName := substr u range.start range.length
      let regName := if regName.isEmpty then ['i', 'n', 'k'] else regName
      let (range, position) ← parseAssetType u position
      let assetTypeString := substr u range.start range.length
      let (range, position) ← parseAssetName u position
      let assetName := substr u range.start range.length
      let (range, position) ← parseRevisionIfPresent u position
      let revision := (simpleAtoi (substr u range.start range.length)).getD kDefaultRevisionNumber
      if position != u.length then none
      else if assetTypeString == "brush-family".toList then
        some ⟨regName, assetName, revision, .brushFamily⟩
      else if assetTypeString == "texture".toList then
        some ⟨regName, assetName, revision, .texture⟩
      else none

/-- uri.cc:68-78 -/
def assetTypeString : AssetType → List Char
  | .uninitialized => "uninitialized".toList
  | .brushFamily => "brush-family".toList
  | .texture => "texture".toList

/-- Decimal printing of an integer by `absl::StrAppend`. -/
def printNat (n : Nat) : List Char :=
  if n = 0 then ['0'] else (Nat.digits 10 n).reverse.map fun d => Char.ofNat (d + '0'.toNat)

/-- uri.cc:298-313 -/
def toNormalizedString (x : Uri) : List Char :=
  if x.assetType = .uninitialized then []
  else
    (if x.regName ≠ ['i', 'n', 'k'] then ['/', '/'] ++ x.regName else []) ++
      (['/'] ++ assetTypeString x.assetType ++ [':'] ++ x.assetName) ++
      (if x.revision ≠ kDefaultRevisionNumber then [':'] ++ printNat x.revision else [])

end Verif.Uri
