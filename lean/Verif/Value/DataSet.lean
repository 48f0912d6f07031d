import Verif.Value.Model
/-!
# Model of `nebula::DataSet` (src/common/datatypes/DataSet.h)
-/
namespace Nebula

/-- DataSet.h:22-24. -/
structure DataSet where
  colNames : List Bytes
  rows : List (List Value)

namespace DataSet

/-- DataSet.h:59-71 `colValues`: `none` is undefined behaviour (reading a row past its end). -/
def colValues (ds : DataSet) (col : Bytes) : Option (List Value) :=
  match ds.colNames.findIdx? (· == col) with
  | none => some []
  | some i => ds.rows.mapM (fun r => r[i]?)

/-- DataSet.h:92-100 `emplace_back`. -/
def emplaceBack (ds : DataSet) (row : List Value) : DataSet × Bool :=
  if row.length ≠ ds.colNames.length then (ds, false) else (⟨ds.colNames, ds.rows ++ [row]⟩, true)

/-- DataSet.h:103-116 `append`. -/
def append (ds o : DataSet) : DataSet × Bool :=
  if ds.colNames = [] then (⟨o.colNames, ds.rows ++ o.rows⟩, true)
  else if ds.colNames ≠ o.colNames then (ds, false)
  else (⟨ds.colNames, ds.rows ++ o.rows⟩, true)

/-- DataSet.h:119-135 `merge`: the column names of `o` go to the end, the values of `o` to the
beginning of each row. -/
def merge (ds o : DataSet) : DataSet × Bool :=
  if ds.rows.length ≠ o.rows.length then (ds, false)
  else (⟨ds.colNames ++ o.colNames, List.zipWith (fun r s => s ++ r) ds.rows o.rows⟩, true)

end DataSet
end Nebula
