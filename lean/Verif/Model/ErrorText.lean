import Verif.Model.Basic
import Verif.Model.BinInterval
/-!
# Text of errors and conversions between them (error.rs, axis/bininterval/bininterval.rs)
-/
namespace NdHist

/-- `#[error("...")]` of `AxisError` (error.rs:27-43) -/
def AxisError.text : AxisError → String
  | .InvalidNumberOfBins => "number of bins should be positive and non-zero and must be convertible to the coordinate type"
  | .InvalidAxisRange => "Invalid axis range. Low edge should not equal high edge."
  | .InvalidStepSize => "axis step size should be non-zero and positive"
  | .InvalidNumberOfBinEdges => "the number of bin edges must be at >= 2."
  | .FailedToSortBinEdges => "failed to sort bin_edges. The list of axis bin edges must be sortable."

/-- `#[error("...")]` of `BinaryOperationError` (error.rs:21) -/
def BinaryOperationError.text : BinaryOperationError → String
  | .mk => "histogram binary operation failed (check binning?)"

/-- `#[error(transparent)]` (error.rs:10, 13) -/
def Error.text : Error → String
  | .BinaryOperationError e => e.text
  | .AxisError e => e.text

/-- `#[from] AxisError` (error.rs:14): the conversion done by `?` -/
def Error.ofAxisError (e : NdHist.AxisError) : Error := .AxisError e
/-- `#[from] BinaryOperationError` (error.rs:11) -/
def Error.ofBinaryOperationError (e : NdHist.BinaryOperationError) : Error := .BinaryOperationError e

/-- `Display` (axis/bininterval/bininterval.rs:167-171) -/
def BinIntervalConversionError.text : BinIntervalConversionError → String
  | .mk => "invalid range to bin interval conversion"

end NdHist
