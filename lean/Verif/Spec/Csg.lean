/-! Specification vocabulary for C16: Boolean expressions over atoms, with the usual meaning. -/

namespace BR

/-- A Boolean expression over atoms of type `α`. -/
inductive BExpr (α : Type)
  | atom (a : α)
  | and (x y : BExpr α)
  | or (x y : BExpr α)
  | not (x : BExpr α)
  | diff (x y : BExpr α)

/-- Truth-table meaning under a valuation of the atoms. -/
def BExpr.eval {α : Type} (v : α → Bool) : BExpr α → Bool
  | .atom a => v a
  | .and x y => x.eval v && y.eval v
  | .or x y => x.eval v || y.eval v
  | .not x => !x.eval v
  | .diff x y => x.eval v && !y.eval v

end BR
