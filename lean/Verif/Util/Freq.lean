/-!
# Frequency statistics

Code modelled: `/repo/ecal/core/src/util/frequency_calculator.h` L34-45 (`calculateFrequency`), L47-85
(`FrequencyCalculator`), L88-152 (`ResettableFrequencyCalculator`); use in
`/repo/ecal/core/src/readwrite/ecal_reader.cpp` L917-922 and `ecal_writer.cpp` L951-956 (`GetFrequency`, in mHz as a
32 bit integer); `/repo/ecal/core/src/readwrite/ecal_reader.cpp` L77 and `ecal_writer.cpp` L105 (reset factor 3).

Times are integers in nanoseconds.  Simplification: a frequency is kept exactly, as ticks per span, where
the code rounds to a `double`.  `max` is the `DBL_MAX` the code returns for a span of zero.
-/

namespace Ecal.Util.Freq

inductive Frq where
  | zero
  | max
  | ratio (ticks : Nat) (span : Int)     -- ticks per `span` nanoseconds, `span ≠ 0`
deriving DecidableEq, Repr

/-- `calculateFrequency`. -/
def calculate (first last : Int) (ticks : Nat) : Frq :=
  if last - first = 0 then .max else .ratio ticks (last - first)

/-- `FrequencyCalculator`. -/
structure Calc where
  counted : Nat
  first   : Int
  last    : Int
  prev    : Frq
deriving DecidableEq, Repr

def Calc.mk' (now : Int) : Calc := ⟨0, now, now, .zero⟩

def Calc.addTick (c : Calc) (now : Int) : Calc := { c with counted := c.counted + 1, last := now }

def Calc.get (c : Calc) : Calc × Frq :=
  if c.counted = 0 then (c, c.prev)
  else
    let f := calculate c.first c.last c.counted
    ({ counted := 0, first := c.last, last := c.last, prev := f }, f)

/-- `ResettableFrequencyCalculator`. -/
structure State where
  factor   : Nat
  cur     : Option Calc := none
  last     : Int := 0
  received : Bool := false
deriving DecidableEq, Repr

def addTick (st : State) (now : Int) : State :=
  { st with cur := some (match st.cur with
                          | none => Calc.mk' now
                          | some c => c.addTick now)
            last := now, received := true }

/-- Expected time between two ticks times the reset factor, in whole nanoseconds. -/
def patience (factor : Nat) : Frq → Int
  | .zero => 0
  | .max => 0
  | .ratio n d => (d * factor).tdiv n

def get (st : State) (now : Int) : State × Frq :=
  match st.cur with
  | none => (st, .zero)
  | some c =>
    let r := c.get
    if r.2 = .zero then ({ st with cur := some r.1 }, .zero)
    else if st.received then ({ st with cur := some r.1, received := false }, r.2)
    else if now > st.last + patience st.factor r.2 then ({ st with cur := none }, .zero)
    else ({ st with cur := some r.1 }, r.2)

/-- `GetFrequency` of publisher and subscriber: milli-hertz as `int32_t`; `none` is the undefined
behaviour of converting a value out of range. -/
def toMilliHz : Frq → Option Int
  | .zero => some 0
  | .max => none
  | .ratio n d =>
    let v := ((n : Int) * 1000000000 * 1000).tdiv d
    if -(2 ^ 31) ≤ v ∧ v < 2 ^ 31 then some v else none

inductive Op where
  | tick (t : Int)
  | get (now : Int)
deriving DecidableEq, Repr

def step (st : State) : Op → State × Option Frq
  | .tick t => (addTick st t, none)
  | .get now => ((get st now).1, some (get st now).2)

def run : State → List Op → State × List Frq
  | st, [] => (st, [])
  | st, a :: l =>
    let r := step st a
    let rest := run r.1 l
    (rest.1, r.2.toList ++ rest.2)

end Ecal.Util.Freq
