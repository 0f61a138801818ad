import Verif.Basic.Bytes
/-! # The time a callback is told (`src/frpcmethodregistry.cc:60-92`) -/
namespace Frpc
namespace Elapsed

/-- `TimeDiff_t` (`src/frpcmethodregistry.h:89-96`): the clock when it was made (`src/frpcmethodregistry.cc:60-75`, `gettimeofday`), or a duration. The members are `long` of 64 bits. -/
structure TimeDiff where
  second : Int
  usecond : Int
deriving DecidableEq, Repr

/-- `TimeDiff_t(unsigned int, unsigned int)` of values cast to `uint32_t` (`src/frpcmethodregistry.h:90`). -/
def make (second usecond : Int) : TimeDiff := ⟨second % 2 ^ 32, usecond % 2 ^ 32⟩

/-- `diff` (`src/frpcmethodregistry.cc:77-92`), `now` being the clock when it is called. -/
def diff (start now : TimeDiff) : TimeDiff :=
  if now.second < start.second ∨ (now.second = start.second ∧ now.usecond < start.usecond) then make 0 0
  else if now.usecond ≥ start.usecond then make (now.second - start.second) (now.usecond - start.usecond)
  else make (now.second - start.second - 1) (1000000 - start.usecond + now.usecond)

end Elapsed
end Frpc
