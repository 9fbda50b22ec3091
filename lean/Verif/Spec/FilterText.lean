import Verif.Spec.Filter
import Verif.Spec.Tokenize
/-!
# Specification: the text of a topic filter

What an Ethereum node is sent as `topics`, written down character by character.
-/
namespace Ethabi.Spec

/-- `"0x…"`: two lower-case hexadecimal digits for every byte, in quotation marks -/
def quotedHash (h : Word) : Str :=
  '"' :: '0' :: 'x' :: (h.1.flatMap fun b => [hexDigits.getD (b.toNat / 16) '0', hexDigits.getD (b.toNat % 16) '0']) ++ ['"']

/-- one slot -/
def slotText : Topic Word → Str
  | .any => "null".toList
  | .this h => quotedHash h
  | .oneOf hs => listText '[' ']' (hs.map quotedHash)

/-- the four slots in order -/
def filterText (f : TopicFilter) : Str := listText '[' ']' (List.map slotText [f.topic0, f.topic1, f.topic2, f.topic3])

end Ethabi.Spec
