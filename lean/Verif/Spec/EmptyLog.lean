import Verif.Spec.Logs
/-! # Logs with nothing to read -/
namespace Ethabi.Spec

/-- the log is signed, and either there are no topics behind the signature though values are expected there, or the topics
are in order and there are no data though values are expected there (`bytes0` and `T[0]` need none) -/
def nothingToRead (hash : Bytes → Word) (name : Str) (kinds : List ParamType) (anonymous : Bool) (topics : List Bytes)
    (data : Bytes) (ts ds : List ParamType) : Prop :=
  signedBy hash name kinds anonymous topics ∧
    ((argumentTopics anonymous topics = [] ∧ ∃ t ∈ ts, t ≠ .fixedBytes 0) ∨
     ((∃ tt, topicsHold hash name kinds anonymous topics ts tt) ∧ data = [] ∧ ¬ zeroTypes ds))

end Ethabi.Spec
