import Verif.Crs.Model

/-!
# Model of `sortColumnEntries`
-/

namespace Plato
variable {K : Type}

/-- Loop body of `sortColumnEntries` for one row, /repo/src/PlatoMathHelpers.hpp:294-312.
The state is the pair (column map, values). -/
def sortRow (rowMap : List Nat) (row : Nat) (st : List Nat × List K) : Res (List Nat × List K) := do
  let lo ← rd rowMap row
  let hi ← rd rowMap (row + 1)
  forRange lo hi st fun i st =>
    forRange lo hi st fun j st => do
      let ci ← rd st.1 i
      let cj ← rd st.1 j
      if ci < cj then do
        let c1 ← wr st.1 j ci
        let c2 ← wr c1 i cj
        let vj ← rd st.2 j
        let vi ← rd st.2 i
        let v1 ← wr st.2 j vi
        let v2 ← wr v1 i vj
        pure (c2, v2)
      else pure st

/-- `sortColumnEntries`, /repo/src/PlatoMathHelpers.hpp:288-313; `order` is the schedule of the
rows. -/
def sortColumnEntries (order : List Nat) (rowMap : List Nat) (st : List Nat × List K) :
    Res (List Nat × List K) :=
  parFor order st (sortRow rowMap)

end Plato
