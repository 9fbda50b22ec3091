import Verif.Model.Contract
/-! # Reading a sequence element by element -/
namespace Ethabi

theorem next_cons {α β : Type} (de : Json → Res α) (x : Json) (xs : List Json) (f : Option α × List Json → Res β) :
    (nextElement de (x :: xs) >>= f) = (de x >>= fun a => f (some a, xs)) := by
  rw [nextElement, Res.bind_assoc]; rfl

theorem next_nil {α β : Type} (de : Json → Res α) (f : Option α × List Json → Res β) :
    (nextElement de [] >>= f) = f (none, []) := rfl

end Ethabi
