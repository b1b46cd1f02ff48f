import Mathlib.Data.List.Basic
import Mathlib.Data.Fintype.Pigeonhole
import Mathlib.Data.Fintype.Card

/-!
# Model of the seeds of the random number generators (src/math/detail/seed.cpp, include/fcl/math/rng-inl.h)

Each call runs on its own: `getFirstSeed` and `getNextSeed` hold a mutex, the other calls read or write one word.
-/

namespace Fcl
namespace Rand

/-- The static variables: the members of `Seed` (seed.h 72-79), and how many numbers the generator `sGen` of
`getNextSeed` has produced. -/
structure SeedState where
  userSet : ℕ
  generated : Bool
  first : ℕ
  handed : ℕ
deriving DecidableEq

/-- `Seed::Seed`, seed.cpp 107-110. -/
def SeedState.start : SeedState := ⟨0, false, 0, 0⟩

/-- The calls of a program. -/
inductive SeedCall
  /-- `RNG<S>::setSeed(seed)`. -/
  | setSeed (seed : ℕ)
  /-- `RNG<S>::getSeed()` at the given number of microseconds. -/
  | getSeed (now : ℕ)
  /-- The constructor `RNG<S>::RNG()`. -/
  | create

/-- `RNG::setSeed`, rng-inl.h 192-209, with `Seed::setUserSetSeed`, seed.cpp 62-65. -/
def setSeed (s : SeedState) (seed : ℕ) : SeedState := { s with userSet := if seed = 0 then 1 else seed }

/-- `Seed::getFirstSeed`, seed.cpp 68-92. The conversion of the time to `uint_fast32_t` is left out. -/
def getFirstSeed (s : SeedState) (now : ℕ) : ℕ × SeedState :=
  if s.generated then (s.first, s)
  else
    let first := if s.userSet ≠ 0 then s.userSet else now
    (first, { s with first := first, generated := true })

/-- `Seed::getNextSeed`, seed.cpp 96-104. `sGen` is a static generator that is never seeded: its numbers, as `sDist` maps
them to 1, ..., 1000000000, are a fixed sequence. -/
def getNextSeed (seq : ℕ → ℕ) (s : SeedState) : ℕ × SeedState := (seq s.handed, { s with handed := s.handed + 1 })

/-- A call; the result is the value of `getSeed` or the seed of the new generator. -/
def seedCall (seq : ℕ → ℕ) (s : SeedState) : SeedCall → Option ℕ × SeedState
  | .setSeed seed => (none, setSeed s seed)
  | .getSeed now => let (v, s) := getFirstSeed s now; (some v, s)
  | .create => let (v, s) := getNextSeed seq s; (some v, s)

/-- A program: the results of its calls. -/
def seedRun (seq : ℕ → ℕ) (s : SeedState) : List SeedCall → List (Option ℕ) × SeedState
  | [] => ([], s)
  | c :: cs =>
    let (v, s) := seedCall seq s c
    let (vs, s) := seedRun seq s cs
    (v :: vs, s)

end Rand
end Fcl
