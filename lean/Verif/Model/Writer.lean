import Verif.Model.Types
import Verif.Model.Text
/-! # Type strings: `Writer` -/
namespace Ethabi

mutual
/-- ethabi/src/param_type/writer.rs:23-51 `Writer::write_for_abi`. -/
def writeForAbi (contents : Bool) : ParamType → Str
  | .address => lit "address"
  | .bytes => lit "bytes"
  | .fixedBytes len => lit "bytes" ++ natText len
  | .int len => lit "int" ++ natText len
  | .uint len => lit "uint" ++ natText len
  | .bool => lit "bool"
  | .string => lit "string"
  | .fixedArray t len => writeForAbi contents t ++ lit "[" ++ natText len ++ lit "]"
  | .array t => writeForAbi contents t ++ lit "[]"
  | .tuple ts =>
      if contents then lit "(" ++ join (lit ",") (writeAll contents ts) ++ lit ")" else lit "tuple"
/-- `params.iter().map(|t| ..).collect::<Vec<String>>()`, writer.rs:40-43 -/
def writeAll (contents : Bool) : List ParamType → List Str
  | [] => []
  | t :: ts => writeForAbi contents t :: writeAll contents ts
end

/-- writer.rs:16-18 `Writer::write`; also `Display for ParamType`, param_type.rs:39-43. -/
def write (t : ParamType) : Str := writeForAbi true t

end Ethabi
