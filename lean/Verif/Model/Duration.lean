import Verif.F32.Basic

/-!
# Model of `Duration32`

From `ink/types/duration.{h,cc}`. A duration is its number of seconds, a binary32 value. The
conversions from and to `absl::Duration` and the formatting are not modelled.
-/

set_option autoImplicit false

namespace Verif

/-- duration.h:77, 150 `Duration32` -/
structure Duration32 where
  seconds : F32
  deriving DecidableEq, Repr

namespace Duration32

/-- duration.h:159 `Zero` -/
def zero : Duration32 := ⟨F32.zero⟩

/-- duration.h:161-163 `Infinite` -/
def infinite : Duration32 := ⟨.inf false⟩

/-- duration.h:165-168 `Seconds` -/
def ofSeconds (s : F32) : Duration32 := if s.isNaN then infinite else ⟨s⟩

/-- The literal `0.001f` in duration.h:172. -/
def milli : F32 := .fin false 0x3A83126F (by decide)

/-- duration.h:170-173 `Millis` -/
def ofMillis (ms : F32) : Duration32 := if ms.isNaN then infinite else ⟨F32.mul milli ms⟩

/-- duration.h:175 `ToSeconds` -/
def toSeconds (d : Duration32) : F32 := d.seconds

/-- duration.h:177 `ToMillis` -/
def toMillis (d : Duration32) : F32 := F32.mul (F32.ofInt 1000) d.seconds

/-- duration.h:183-185 `IsFinite` -/
def isFinite (d : Duration32) : Bool := d.seconds.isFinite

/-- duration.h:187-189 `operator==` -/
def eq (a b : Duration32) : Bool := F32.feq a.seconds b.seconds

/-- duration.h:195-197 `operator<` -/
def lt (a b : Duration32) : Bool := F32.lt a.seconds b.seconds

/-- duration.h:203-205 `operator<=` -/
def le (a b : Duration32) : Bool := F32.le a.seconds b.seconds

/-- duration.h:207-209 `operator>=` -/
def ge (a b : Duration32) : Bool := F32.ge a.seconds b.seconds

/-- duration.h:211-213 unary `operator-` -/
def neg (d : Duration32) : Duration32 := ⟨F32.neg d.seconds⟩

/-- duration.h:215-218 `operator+` -/
def add (a b : Duration32) : Duration32 := if !a.isFinite then a else ⟨F32.add a.seconds b.seconds⟩

/-- duration.h:220-223 `operator-` -/
def sub (a b : Duration32) : Duration32 := if !a.isFinite then a else ⟨F32.sub a.seconds b.seconds⟩

/-- duration.cc:25-35 `operator*`, and duration.h:225 with the arguments exchanged. -/
def mul (d : Duration32) (scale : F32) : Duration32 :=
  if scale.isNaN then if d.ge zero then infinite else infinite.neg
  else if !d.isFinite then
    if (d.ge zero) == (F32.ge scale F32.zero) then infinite else infinite.neg
  else ⟨F32.mul d.seconds scale⟩

/-- duration.cc:37-48 `operator/` by a number -/
def div (d : Duration32) (divisor : F32) : Duration32 :=
  if divisor.isNaN then if d.ge zero then infinite else infinite.neg
  else if !d.isFinite then
    if (d.ge zero) == (F32.ge divisor F32.zero) then infinite else infinite.neg
  else ⟨F32.div d.seconds divisor⟩

/-- duration.cc:50-61 `operator/` of two durations -/
def ratio (a b : Duration32) : F32 :=
  if b.eq zero then if a.ge zero then .inf false else .inf true
  else if !a.isFinite then if (a.ge zero) == (b.ge zero) then .inf false else .inf true
  else F32.div a.seconds b.seconds

end Duration32

/-- A history of factories and operators: the way a program obtains a duration. -/
inductive DurationExpr where
  | zero
  | infinite
  | seconds (s : F32)
  | millis (ms : F32)
  | neg (d : DurationExpr)
  | add (a b : DurationExpr)
  | sub (a b : DurationExpr)
  | mul (d : DurationExpr) (scale : F32)
  | div (d : DurationExpr) (divisor : F32)

def DurationExpr.eval : DurationExpr → Duration32
  | .zero => Duration32.zero
  | .infinite => Duration32.infinite
  | .seconds s => Duration32.ofSeconds s
  | .millis ms => Duration32.ofMillis ms
  | .neg d => d.eval.neg
  | .add a b => a.eval.add b.eval
  | .sub a b => a.eval.sub b.eval
  | .mul d s => d.eval.mul s
  | .div d s => d.eval.div s

end Verif
