import Verif.Line

/-!
# The exceptions of the library (`btalib/errors.py`)
-/

namespace Bta.Meta

/-- The classes of an exception, most derived first: what an `except` clause can name to catch it.  `TaPyError` and `InputsError`
are those of errors.py:10-15, which the functions of errors.py:18-49 raise; the others are python's. (`BaseException` and `object`,
which catch everything, are left out.) -/
def excClasses : Err → List String
  | .indexError => ["IndexError", "LookupError", "Exception"]
  | .keyError => ["KeyError", "LookupError", "Exception"]
  | .valueError => ["ValueError", "Exception"]
  | .overflowError => ["OverflowError", "ArithmeticError", "Exception"]
  | .typeError => ["TypeError", "Exception"]
  | .attributeError => ["AttributeError", "Exception"]
  | .recursionError => ["RecursionError", "RuntimeError", "Exception"]
  | .oneInputNeeded | .multiDimType | .multiDimSmall | .pandasNotTopStack | .colIdxStrNotFound _ _ =>
    ["InputsError", "TaPyError", "Exception"]

/-- The text of an exception raised by the library itself (errors.py:18-49: `OneInputNeededZeroProvided`, `MultiDimSmall`,
`MultiDimType`, `PandasNotTopStack`, `ColdIndexStrNotFound`). -/
def excText : Err → Option String
  | .oneInputNeeded => some "One (1) input is at least needed and 0 were provided"
  | .multiDimSmall => some "The multidimensional input size is smaller than the number of needed inputs"
  | .multiDimType => some "Only DataFrames or library/user indicators are accepted as multi-dimensional inputs"
  | .pandasNotTopStack => some "Pandas DataFrames only valid as input from outside of the library"
  | .colIdxStrNotFound name rename =>
    some ("OHLC Column Name \"" ++ name ++ "\" remapped to \"" ++ rename ++ "\", but this cannot be found")
  | _ => none

end Bta.Meta
