import Verif.F32.Basic

/-!
# Model of `PhysicalDistance` and `SmallArray`

From `ink/types/physical_distance.h` and `ink/types/small_array.h`. A distance is its number of centimetres, a binary32 value; the text form
and the hash are not modelled. An array has room for a number of elements, of which the first `size` count; the others are whatever they are.
-/

set_option autoImplicit false

namespace Verif

/-- physical_distance.h:35, 97 `PhysicalDistance` -/
structure PhysicalDistance where
  cm : F32
  deriving DecidableEq, Repr

namespace PhysicalDistance

/-- physical_distance.h:84 `kCentimetersPerMeter` -/
def perMeter : F32 := F32.ofInt 100

/-- physical_distance.h:86 `kCentimetersPerInch`, the literal 2.54 -/
def perInch : F32 := .fin false 0x40228F5C (by decide)

/-- physical_distance.h:103-105 `Zero` -/
def zero : PhysicalDistance := ⟨F32.zero⟩

/-- physical_distance.h:107-109 `Centimeters` -/
def ofCentimeters (x : F32) : PhysicalDistance := ⟨x⟩

/-- physical_distance.h:111-113 `Inches` -/
def ofInches (x : F32) : PhysicalDistance := ofCentimeters (F32.mul x perInch)

/-- physical_distance.h:115-117 `Meters` -/
def ofMeters (x : F32) : PhysicalDistance := ofCentimeters (F32.mul x perMeter)

/-- physical_distance.h:119-121 `ToCentimeters` -/
def toCentimeters (d : PhysicalDistance) : F32 := d.cm

/-- physical_distance.h:123-125 `ToInches` -/
def toInches (d : PhysicalDistance) : F32 := F32.div d.toCentimeters perInch

/-- physical_distance.h:127-129 `ToMeters` -/
def toMeters (d : PhysicalDistance) : F32 := F32.div d.toCentimeters perMeter

/-- physical_distance.h:131-133 `IsFinite` -/
def isFinite (d : PhysicalDistance) : Bool := d.cm.isFinite

/-- physical_distance.h:135-137 `operator==` -/
def eq (a b : PhysicalDistance) : Bool := F32.feq a.cm b.cm

/-- physical_distance.h:139-141 `operator!=` -/
def ne (a b : PhysicalDistance) : Bool := !F32.feq a.cm b.cm

/-- physical_distance.h:143-145 `operator<` -/
def lt (a b : PhysicalDistance) : Bool := F32.lt a.cm b.cm

/-- physical_distance.h:147-149 `operator>` -/
def gt (a b : PhysicalDistance) : Bool := F32.gt a.cm b.cm

/-- physical_distance.h:151-153 `operator<=` -/
def le (a b : PhysicalDistance) : Bool := F32.le a.cm b.cm

/-- physical_distance.h:155-157 `operator>=` -/
def ge (a b : PhysicalDistance) : Bool := F32.ge a.cm b.cm

/-- physical_distance.h:159-161 `operator-` -/
def neg (d : PhysicalDistance) : PhysicalDistance := ⟨F32.neg d.cm⟩

/-- physical_distance.h:163-165 `operator+`; 188-190 `operator+=` -/
def add (a b : PhysicalDistance) : PhysicalDistance := ⟨F32.add a.cm b.cm⟩

/-- physical_distance.h:167-169 `operator-`; 192-194 `operator-=` -/
def sub (a b : PhysicalDistance) : PhysicalDistance := ⟨F32.sub a.cm b.cm⟩

/-- physical_distance.h:171-177 `operator*`; 196-198 `operator*=` -/
def mul (d : PhysicalDistance) (s : F32) : PhysicalDistance := ⟨F32.mul d.cm s⟩

/-- physical_distance.h:179-181 `operator/`; 200-202 `operator/=` -/
def div (d : PhysicalDistance) (s : F32) : PhysicalDistance := ⟨F32.div d.cm s⟩

/-- physical_distance.h:183-185 `operator/` of two distances -/
def ratio (a b : PhysicalDistance) : F32 := F32.div a.cm b.cm

end PhysicalDistance

/-- small_array.h:42-125 `SmallArray`, with room for `data.length` elements -/
structure SmallArray (T : Type) where
  size : ℕ
  data : List T

namespace SmallArray

variable {T : Type}

/-- `std::fill` from one place up to another -/
def fill (l : List T) (i j : ℕ) (v : T) : List T := l.take i ++ List.replicate (j - i) v ++ l.drop j

/-- small_array.h:45, 123 `SmallArray()`: `junk` is what is in memory. -/
def empty (junk : List T) : SmallArray T := ⟨0, junk⟩

/-- small_array.h:49-52 `SmallArray(count, value)`; too many elements are undefined. -/
def ofCount (junk : List T) (count : ℕ) (v : T) : Option (SmallArray T) :=
  if count ≤ junk.length then some ⟨count, fill junk 0 count v⟩ else none

/-- small_array.h:56-63 `SmallArray(values)` -/
def ofValues (junk : List T) (values : List T) : Option (SmallArray T) :=
  if values.length ≤ junk.length then some ⟨values.length, values ++ junk.drop values.length⟩ else none

/-- small_array.h:79-88 `Resize`; `dflt` is `T()`. -/
def resize (dflt : T) (a : SmallArray T) (n : ℕ) (v : T) : Option (SmallArray T) :=
  if n ≤ a.data.length then
    if n = a.size then some a
    else if a.size < n then some ⟨n, fill a.data a.size n v⟩
    else some ⟨n, fill a.data n a.size dflt⟩
  else none

/-- small_array.h:91-94 `Values` -/
def values (a : SmallArray T) : List T := a.data.take a.size

/-- small_array.h:98-101 `operator[]`, writing -/
def set (a : SmallArray T) (i : ℕ) (v : T) : Option (SmallArray T) := if i < a.size then some ⟨a.size, a.data.set i v⟩ else none

/-- small_array.h:102-105 `operator[]`, reading -/
def get (a : SmallArray T) (i : ℕ) : Option T := if i < a.size then a.data[i]? else none

/-- small_array.h:128-131 `operator==` -/
def eq [DecidableEq T] (a b : SmallArray T) : Bool := decide (a.values = b.values)

/-- Calls that change an array -/
inductive Op (T : Type)
  | resize (n : ℕ) (v : T)
  | set (i : ℕ) (v : T)

def step (dflt : T) (a : SmallArray T) : Op T → Option (SmallArray T)
  | .resize n v => a.resize dflt n v
  | .set i v => a.set i v

def run (dflt : T) : SmallArray T → List (Op T) → Option (SmallArray T)
  | a, [] => some a
  | a, o :: os => (step dflt a o).bind fun a => run dflt a os

end SmallArray

end Verif
