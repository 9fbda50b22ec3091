import Verif.Model.Event
import Verif.Proofs.DecodeFacts
/-! Debug and release builds compute the same thing unless the debug build panics. -/
namespace Ethabi
open Spec (dynamic narrow narrowAll)

/-- `d` (debug) panics or `r` (release) is the same -/
def Agree {α : Type} (d r : Res α) : Prop := d = .panic ∨ r = d

theorem agree_refl {α : Type} (x : Res α) : Agree x x := .inr rfl

theorem agree_bind {α β : Type} {x y : Res α} {f g : α → Res β} (h1 : Agree x y) (h2 : ∀ a, Agree (f a) (g a)) :
    Agree (x >>= f) (y >>= g) := by
  rcases h1 with rfl | rfl
  · exact .inl rfl
  · cases y with
    | ok a => exact h2 a
    | err e => exact .inr rfl
    | panic => exact .inr rfl

theorem agree_machine (bits n : Nat) : Agree (machine .debug bits n) (machine .release bits n) := by
  unfold machine
  split
  · exact agree_refl _
  · exact .inl rfl

mutual
theorem agree_headLen : ∀ m : Mediate, Agree (m.headLen .debug) (m.headLen .release)
  | .raw ws => agree_machine _ _
  | .rawTuple ms => by rw [Mediate.headLen, Mediate.headLen]; exact agree_sumHeadLen ms 0
  | .prefixed _ => agree_refl _
  | .prefixedArray _ => agree_refl _
  | .prefixedArrayWithLength _ => agree_refl _
  | .prefixedTuple _ => agree_refl _
theorem agree_sumHeadLen : ∀ (ms : List Mediate) (acc : Nat),
    Agree (Mediate.sumHeadLen .debug ms acc) (Mediate.sumHeadLen .release ms acc)
  | [], acc => agree_refl _
  | m :: ms, acc => by
      rw [Mediate.sumHeadLen, Mediate.sumHeadLen]
      refine agree_bind (agree_headLen m) fun h => ?_
      refine agree_bind (agree_machine _ _) fun acc' => ?_
      exact agree_sumHeadLen ms acc'
end

mutual
theorem agree_tailLen : ∀ m : Mediate, Agree (m.tailLen .debug) (m.tailLen .release)
  | .raw _ => agree_refl _
  | .rawTuple _ => agree_refl _
  | .prefixed ws => agree_machine _ _
  | .prefixedArray ms => by rw [Mediate.tailLen, Mediate.tailLen]; exact agree_sumLen ms _
  | .prefixedArrayWithLength ms => by rw [Mediate.tailLen, Mediate.tailLen]; exact agree_sumLen ms _
  | .prefixedTuple ms => by rw [Mediate.tailLen, Mediate.tailLen]; exact agree_sumLen ms _
theorem agree_sumLen : ∀ (ms : List Mediate) (acc : Nat), Agree (Mediate.sumLen .debug ms acc) (Mediate.sumLen .release ms acc)
  | [], acc => agree_refl _
  | m :: ms, acc => by
      rw [Mediate.sumLen, Mediate.sumLen]
      refine agree_bind (agree_headLen m) fun h => ?_
      refine agree_bind (agree_machine _ _) fun acc1 => ?_
      refine agree_bind (agree_tailLen m) fun t => ?_
      refine agree_bind (agree_machine _ _) fun acc2 => ?_
      exact agree_sumLen ms acc2
end

theorem agree_heads : ∀ (ms : List Mediate) (acc : List Word) (off : Nat),
    Agree (Mediate.heads .debug ms acc off) (Mediate.heads .release ms acc off)
  | [], acc, off => agree_refl _
  | m :: ms, acc, off => by
      rw [Mediate.heads, Mediate.heads]
      refine agree_bind (agree_tailLen m) fun t => ?_
      refine agree_bind (agree_machine _ _) fun off' => ?_
      exact agree_heads ms _ off'

theorem agree_assemble (ms : List Mediate) {ts us : Res (List Word)} (h : Agree ts us) :
    Agree (Mediate.assemble .debug ms ts) (Mediate.assemble .release ms us) := by
  unfold Mediate.assemble
  refine agree_bind (agree_sumHeadLen ms 0) fun hl => ?_
  refine agree_bind (agree_heads ms [] hl) fun r => ?_
  exact agree_bind h fun _ => agree_refl _

mutual
theorem agree_tail : ∀ m : Mediate, Agree (m.tail .debug) (m.tail .release)
  | .raw _ => agree_refl _
  | .rawTuple _ => agree_refl _
  | .prefixed ws => agree_refl _
  | .prefixedArray ms => by rw [Mediate.tail, Mediate.tail]; exact agree_assemble ms (agree_tails ms)
  | .prefixedTuple ms => by rw [Mediate.tail, Mediate.tail]; exact agree_assemble ms (agree_tails ms)
  | .prefixedArrayWithLength ms => by
      rw [Mediate.tail, Mediate.tail]
      exact agree_bind (agree_assemble ms (agree_tails ms)) fun _ => agree_refl _
theorem agree_tails : ∀ ms : List Mediate, Agree (Mediate.tails .debug ms) (Mediate.tails .release ms)
  | [] => agree_refl _
  | m :: ms => by
      rw [Mediate.tails, Mediate.tails]
      refine agree_bind (agree_tail m) fun t => ?_
      exact agree_bind (agree_tails ms) fun _ => agree_refl _
end

theorem agree_encodeHeadTail (ms : List Mediate) : Agree (encodeHeadTail .debug ms) (encodeHeadTail .release ms) :=
  agree_assemble ms (agree_tails ms)

mutual
theorem agree_encodeToken : ∀ t : Token, Agree (encodeToken .debug t) (encodeToken .release t)
  | .address _ => agree_refl _
  | .bytes _ => agree_refl _
  | .string _ => agree_refl _
  | .fixedBytes _ => agree_refl _
  | .int _ => agree_refl _
  | .uint _ => agree_refl _
  | .bool _ => agree_refl _
  | .array ts => by
      rw [encodeToken, encodeToken]
      exact agree_bind (agree_encodeTokens ts) fun _ => agree_refl _
  | .fixedArray ts => by
      rw [encodeToken, encodeToken]
      refine agree_bind (agree_encodeTokens ts) fun ms => ?_
      split
      · exact agree_refl _
      · exact agree_bind (agree_encodeHeadTail ms) fun _ => agree_refl _
  | .tuple ts => by
      rw [encodeToken, encodeToken]
      refine agree_bind (agree_encodeTokens ts) fun ms => ?_
      split <;> exact agree_refl _
theorem agree_encodeTokens : ∀ ts : List Token, Agree (encodeTokens .debug ts) (encodeTokens .release ts)
  | [] => agree_refl _
  | t :: ts => by
      rw [encodeTokens, encodeTokens]
      refine agree_bind (agree_encodeToken t) fun _ => ?_
      exact agree_bind (agree_encodeTokens ts) fun _ => agree_refl _
end

theorem agree_encode (ts : List Token) : Agree (encode .debug ts) (encode .release ts) := by
  unfold encode
  refine agree_bind (agree_encodeTokens ts) fun ms => ?_
  exact agree_bind (agree_encodeHeadTail ms) fun _ => agree_refl _

theorem agree_takeBytes (data : Bytes) (off len : Nat) : Agree (takeBytes .debug data off len) (takeBytes .release data off len) :=
  agree_bind (agree_machine _ _) fun _ => agree_refl _

theorem agree_peek32 (data : Bytes) (off : Nat) : Agree (peek32 .debug data off) (peek32 .release data off) :=
  agree_bind (agree_bind (agree_machine _ _) fun _ => agree_refl _) fun _ => agree_refl _

theorem agree_usizeAdd (a b : Nat) : Agree (usizeAdd .debug a b) (usizeAdd .release a b) := agree_machine _ _

theorem agree_loop {f g : Nat → Res (Token × Nat)} (hf : ∀ o, Agree (f o) (g o)) :
    ∀ (n off : Nat), Agree (decodeLoop f n off) (decodeLoop g n off) := by
  intro n
  induction n with
  | zero => intro off; exact agree_refl _
  | succ n ih =>
    intro off
    rw [decodeLoop, decodeLoop]
    refine agree_bind (hf off) fun a => ?_
    exact agree_bind (ih a.2) fun _ => agree_refl _

mutual
theorem agree_decodeParam : ∀ (t : ParamType) (data : Bytes) (off : Nat),
    Agree (decodeParam .debug t data off) (decodeParam .release t data off)
  | .address, data, off => by
      rw [decodeParam, decodeParam]
      refine agree_bind (agree_peek32 _ _) fun w => ?_
      exact agree_bind (agree_usizeAdd _ _) fun _ => agree_refl _
  | .uint _, data, off => by
      rw [decodeParam, decodeParam]
      refine agree_bind (agree_peek32 _ _) fun w => ?_
      exact agree_bind (agree_usizeAdd _ _) fun _ => agree_refl _
  | .int _, data, off => by
      rw [decodeParam, decodeParam]
      refine agree_bind (agree_peek32 _ _) fun w => ?_
      exact agree_bind (agree_usizeAdd _ _) fun _ => agree_refl _
  | .bool, data, off => by
      rw [decodeParam, decodeParam]
      refine agree_bind (agree_peek32 _ _) fun w => ?_
      refine agree_bind (agree_refl _) fun b => ?_
      exact agree_bind (agree_usizeAdd _ _) fun _ => agree_refl _
  | .fixedBytes n, data, off => by
      rw [decodeParam, decodeParam]
      refine agree_bind (agree_takeBytes _ _ _) fun w => ?_
      exact agree_bind (agree_usizeAdd _ _) fun _ => agree_refl _
  | .bytes, data, off => by
      rw [decodeParam, decodeParam]
      refine agree_bind (agree_peek32 _ _) fun w => ?_
      refine agree_bind (agree_refl _) fun dyn => ?_
      refine agree_bind (agree_peek32 _ _) fun w => ?_
      refine agree_bind (agree_refl _) fun len => ?_
      refine agree_bind (agree_usizeAdd _ _) fun start => ?_
      refine agree_bind (agree_takeBytes _ _ _) fun w => ?_
      exact agree_bind (agree_usizeAdd _ _) fun _ => agree_refl _
  | .string, data, off => by
      rw [decodeParam, decodeParam]
      refine agree_bind (agree_peek32 _ _) fun w => ?_
      refine agree_bind (agree_refl _) fun dyn => ?_
      refine agree_bind (agree_peek32 _ _) fun w => ?_
      refine agree_bind (agree_refl _) fun len => ?_
      refine agree_bind (agree_usizeAdd _ _) fun start => ?_
      refine agree_bind (agree_takeBytes _ _ _) fun w => ?_
      exact agree_bind (agree_usizeAdd _ _) fun _ => agree_refl _
  | .array t, data, off => by
      rw [decodeParam, decodeParam]
      refine agree_bind (agree_peek32 _ _) fun w => ?_
      refine agree_bind (agree_refl _) fun lo => ?_
      refine agree_bind (agree_peek32 _ _) fun w => ?_
      refine agree_bind (agree_refl _) fun len => ?_
      refine agree_bind (agree_usizeAdd _ _) fun st => ?_
      refine agree_bind (agree_refl _) fun tail => ?_
      refine agree_bind (agree_loop (fun o => agree_decodeParam t tail o) _ _) fun r => ?_
      exact agree_bind (agree_usizeAdd _ _) fun _ => agree_refl _
  | .fixedArray t n, data, off => by
      rw [decodeParam, decodeParam]
      split
      · refine agree_bind (agree_peek32 _ _) fun w => ?_
        refine agree_bind (agree_refl _) fun o => ?_
        refine agree_bind (agree_refl _) fun tail => ?_
        refine agree_bind (agree_loop (fun o => agree_decodeParam t tail o) _ _) fun r => ?_
        exact agree_bind (agree_usizeAdd _ _) fun _ => agree_refl _
      · exact agree_bind (agree_loop (fun o => agree_decodeParam t data o) _ _) fun r => agree_refl _
  | .tuple ts, data, off => by
      rw [decodeParam, decodeParam]
      split
      · refine agree_bind (agree_peek32 _ _) fun w => ?_
        refine agree_bind (agree_refl _) fun o => ?_
        split
        · exact agree_refl _
        · refine agree_bind (agree_refl _) fun tail => ?_
          refine agree_bind (agree_decodeParams ts tail 0) fun r => ?_
          exact agree_bind (agree_usizeAdd _ _) fun _ => agree_refl _
      · exact agree_bind (agree_decodeParams ts data off) fun r => agree_refl _
theorem agree_decodeParams : ∀ (ts : List ParamType) (data : Bytes) (off : Nat),
    Agree (decodeParams .debug ts data off) (decodeParams .release ts data off)
  | [], data, off => agree_refl _
  | t :: ts, data, off => by
      rw [decodeParams, decodeParams]
      refine agree_bind (agree_decodeParam t data off) fun r => ?_
      exact agree_bind (agree_decodeParams ts data r.2) fun _ => agree_refl _
end

theorem agree_decode (ts : List ParamType) (data : Bytes) : Agree (decode .debug ts data) (decode .release ts data) := by
  unfold decode
  split
  · exact agree_refl _
  · exact agree_bind (agree_decodeParams ts data 0) fun _ => agree_refl _

theorem agree_convertToken (hash : Bytes → Word) (tok : Token) (t : ParamType) :
    Agree (convertToken hash .debug tok t) (convertToken hash .release tok t) := by
  unfold convertToken
  refine agree_bind (agree_refl _) fun b => ?_
  split
  · exact agree_refl _
  · exact agree_bind (agree_encode _) fun _ => agree_refl _

theorem agree_convertTokens (hash : Bytes → Word) (t : ParamType) : ∀ toks : List Token,
    Agree (convertTokens hash .debug t toks) (convertTokens hash .release t toks)
  | [] => agree_refl _
  | tok :: toks => by
      rw [convertTokens, convertTokens]
      refine agree_bind (agree_convertToken hash tok t) fun w => ?_
      exact agree_bind (agree_convertTokens hash t toks) fun _ => agree_refl _

theorem agree_convertTopic (hash : Bytes → Word) (topic : Topic Token) (k : Option ParamType) :
    Agree (convertTopic hash .debug topic k) (convertTopic hash .release topic k) := by
  cases topic <;> cases k
  · exact agree_refl _
  · exact agree_refl _
  · exact agree_refl _
  · exact agree_bind (agree_convertTokens hash _ _) fun _ => agree_refl _
  · exact agree_refl _
  · exact agree_bind (agree_convertToken hash _ _) fun _ => agree_refl _

theorem agree_filter (hash : Bytes → Word) (e : Event) (raw : RawTopicFilter) :
    Agree (e.filter hash .debug raw) (e.filter hash .release raw) := by
  unfold Event.filter
  dsimp only
  split
  · refine agree_bind (agree_convertTopic _ _ _) fun _ => ?_
    refine agree_bind (agree_convertTopic _ _ _) fun _ => ?_
    exact agree_bind (agree_convertTopic _ _ _) fun _ => agree_refl _
  · refine agree_bind (agree_convertTopic _ _ _) fun _ => ?_
    refine agree_bind (agree_convertTopic _ _ _) fun _ => ?_
    exact agree_bind (agree_convertTopic _ _ _) fun _ => agree_refl _

theorem agree_parseLog (hash : Bytes → Word) (e : Event) (log : RawLog) :
    Agree (e.parseLog hash .debug log) (e.parseLog hash .release log) := by
  unfold Event.parseLog
  dsimp only
  refine agree_bind (agree_refl _) fun sk => ?_
  refine agree_bind (agree_decode _ _) fun tt => ?_
  split
  · exact agree_refl _
  · refine agree_bind (agree_decode _ _) fun _ => ?_
    exact agree_bind (agree_refl _) fun _ => agree_refl _

theorem agree_function_encodeInput (hash : Bytes → Word) (f : Function) (toks : List Token) :
    Agree (f.encodeInput hash .debug toks) (f.encodeInput hash .release toks) := by
  unfold Function.encodeInput
  dsimp only
  refine agree_bind (agree_refl _) fun b => ?_
  split
  · exact agree_refl _
  · exact agree_bind (agree_encode _) fun _ => agree_refl _

theorem agree_constructor_encodeInput (c : Constructor) (code : Bytes) (toks : List Token) :
    Agree (c.encodeInput .debug code toks) (c.encodeInput .release code toks) := by
  unfold Constructor.encodeInput
  refine agree_bind (agree_refl _) fun b => ?_
  split
  · exact agree_bind (agree_encode _) fun _ => agree_refl _
  · exact agree_refl _

/-! ### The decoder does not depend on the profile at all -/

/-- same result, and the new offset stays small -/
def Same {α : Type} (x y : Res (α × Nat)) : Prop := x = y ∧ ∀ a o, x = .ok (a, o) → o ≤ 2 ^ 63 + 31

theorem same_err {α : Type} (e : Err) : Same (Res.err e : Res (α × Nat)) (.err e) := ⟨rfl, by simp⟩

theorem same_ok {α : Type} {a : α} {o : Nat} (h : o ≤ 2 ^ 63 + 31) : Same (Res.ok (a, o)) (Res.ok (a, o)) :=
  ⟨rfl, fun _ _ h' => by cases h'; exact h⟩

theorem same_word {α : Type} {p q : Profile} {off : Nat} {y : α} (ho : off < 2 ^ 63) :
    Same (usizeAdd p off 32 >>= fun o => Res.ok (y, o)) (usizeAdd q off 32 >>= fun o => Res.ok (y, o)) := by
  rw [usizeAdd_ok (prof := p) (by omega), usizeAdd_ok (prof := q) (by omega), Res.ok_bind]
  exact same_ok (by omega)

theorem same_bind {α β : Type} {x y : Res α} {f g : α → Res (β × Nat)} (h1 : x = y)
    (h2 : ∀ a, x = .ok a → Same (f a) (g a)) : Same (x >>= f) (y >>= g) := by
  subst h1
  cases x with
  | ok a => exact h2 a rfl
  | err e => exact same_err e
  | panic => exact ⟨rfl, by simp⟩

theorem same_takeBytes {p q : Profile} {data : Bytes} {off len : Nat} (h : off + len < 2 ^ 64) :
    takeBytes p data off len = takeBytes q data off len := by
  unfold takeBytes
  rw [usizeAdd_ok h, usizeAdd_ok h]

theorem same_peek32 {p q : Profile} {data : Bytes} {off : Nat} (h : off + 32 < 2 ^ 64) :
    peek32 p data off = peek32 q data off := by
  unfold peek32 peek
  rw [usizeAdd_ok h, usizeAdd_ok h]

theorem same_loop {f g : Nat → Res (Token × Nat)} (hf : ∀ o, o ≤ 2 ^ 63 + 31 → Same (f o) (g o)) :
    ∀ (n off : Nat), off ≤ 2 ^ 63 + 31 → Same (decodeLoop f n off) (decodeLoop g n off) := by
  intro n
  induction n with
  | zero => intro off h; exact same_ok h
  | succ n ih =>
    intro off h
    rw [decodeLoop, decodeLoop]
    apply same_bind (hf off h).1
    rintro ⟨tok, o1⟩ h1
    have := (hf off h).2 _ _ h1
    apply same_bind (ih o1 this).1
    rintro ⟨toks, o2⟩ h2
    exact same_ok ((ih o1 this).2 _ _ h2)

theorem same_bytes_like {α : Type} {p q : Profile} {data : Bytes} {off : Nat} (mk : Bytes → α)
    (hd : data.length < 2 ^ 63) (ho : off ≤ 2 ^ 63 + 31) :
    Same (do
        let w ← peek32 p data off
        let dyn ← asUsize w
        let lw ← peek32 p data dyn
        let len ← asUsize lw
        let start ← usizeAdd p dyn 32
        let bs ← takeBytes p data start len
        let off ← usizeAdd p off 32
        .ok (mk bs, off))
      (do
        let w ← peek32 q data off
        let dyn ← asUsize w
        let lw ← peek32 q data dyn
        let len ← asUsize lw
        let start ← usizeAdd q dyn 32
        let bs ← takeBytes q data start len
        let off ← usizeAdd q off 32
        .ok (mk bs, off)) := by
  apply same_bind (same_peek32 (by omega)); intro w hw
  have := (peek32_eq_ok (by omega) hw).1
  apply same_bind rfl; intro o h1
  have h1 := asUsize_lt h1
  apply same_bind (same_peek32 (by omega)); intro w2 hw2
  apply same_bind rfl; intro len h2
  have h2 := asUsize_lt h2
  rw [usizeAdd_ok (prof := p) (a := o) (by omega), usizeAdd_ok (prof := q) (a := o) (by omega), Res.ok_bind, Res.ok_bind]
  apply same_bind (same_takeBytes (by omega)); intro _ _
  exact same_word (by omega)

mutual
theorem same_decodeParam (p q : Profile) : ∀ (t : ParamType) (data : Bytes) (off : Nat),
    narrow t = true → data.length < 2 ^ 63 → off ≤ 2 ^ 63 + 31 → Same (decodeParam p t data off) (decodeParam q t data off)
  | .address, data, off, _, hd, ho => by
      rw [decodeParam, decodeParam]
      apply same_bind (same_peek32 (by omega)); intro w hw
      have := (peek32_eq_ok (by omega) hw).1
      exact same_word (by omega)
  | .uint _, data, off, _, hd, ho => by
      rw [decodeParam, decodeParam]
      apply same_bind (same_peek32 (by omega)); intro w hw
      have := (peek32_eq_ok (by omega) hw).1
      exact same_word (by omega)
  | .int _, data, off, _, hd, ho => by
      rw [decodeParam, decodeParam]
      apply same_bind (same_peek32 (by omega)); intro w hw
      have := (peek32_eq_ok (by omega) hw).1
      exact same_word (by omega)
  | .bool, data, off, _, hd, ho => by
      rw [decodeParam, decodeParam]
      apply same_bind (same_peek32 (by omega)); intro w hw
      have := (peek32_eq_ok (by omega) hw).1
      apply same_bind rfl; intro b _
      exact same_word (by omega)
  | .fixedBytes n, data, off, hn, hd, ho => by
      rw [decodeParam, decodeParam]
      simp only [narrow, decide_eq_true_eq] at hn
      apply same_bind (same_takeBytes (by omega)); intro w hw
      have := (takeBytes_eq_ok (by omega) (by omega) hw).1
      exact same_word (by omega)
  | .bytes, data, off, _, hd, ho => by
      rw [decodeParam, decodeParam]
      exact same_bytes_like _ hd ho
  | .string, data, off, _, hd, ho => by
      rw [decodeParam, decodeParam]
      exact same_bytes_like (fun bs => Token.string (fromUtf8Lossy bs)) hd ho
  | .array t, data, off, hn, hd, ho => by
      rw [decodeParam, decodeParam]
      simp only [narrow] at hn
      apply same_bind (same_peek32 (by omega)); intro w hw
      have := (peek32_eq_ok (by omega) hw).1
      apply same_bind rfl; intro o h1
      have h1 := asUsize_lt h1
      apply same_bind (same_peek32 (by omega)); intro w2 hw2
      apply same_bind rfl; intro len h2
      rw [usizeAdd_ok (prof := p) (a := o) (by omega), usizeAdd_ok (prof := q) (a := o) (by omega), Res.ok_bind, Res.ok_bind]
      apply same_bind rfl; intro tail ht
      have hl := (sliceFrom_eq_ok ht).2
      apply same_bind (same_loop (fun o ho => same_decodeParam p q t tail o hn
        (by rw [hl, List.length_drop]; omega) ho) _ _ (by omega)).1
      intro _ _
      exact same_word (by omega)
  | .fixedArray t n, data, off, hn, hd, ho => by
      rw [decodeParam, decodeParam]
      simp only [narrow] at hn
      split
      · apply same_bind (same_peek32 (by omega)); intro w hw
        have := (peek32_eq_ok (by omega) hw).1
        apply same_bind rfl; intro o h1
        apply same_bind rfl; intro tail ht
        have hl := (sliceFrom_eq_ok ht).2
        apply same_bind (same_loop (fun o ho => same_decodeParam p q t tail o hn
          (by rw [hl, List.length_drop]; omega) ho) _ _ (by omega)).1
        intro _ _
        exact same_word (by omega)
      · have hl := same_loop (fun o ho => same_decodeParam p q t data o hn hd ho) n off ho
        apply same_bind hl.1
        rintro ⟨toks, o⟩ h
        exact same_ok (hl.2 _ _ h)
  | .tuple ts, data, off, hn, hd, ho => by
      rw [decodeParam, decodeParam]
      simp only [narrow] at hn
      split
      · apply same_bind (same_peek32 (by omega)); intro w hw
        have := (peek32_eq_ok (by omega) hw).1
        apply same_bind rfl; intro o h1
        split
        · exact same_err _
        · apply same_bind rfl; intro tail ht
          have hl := (sliceFrom_eq_ok ht).2
          apply same_bind (same_decodeParams p q ts tail 0 hn (by rw [hl, List.length_drop]; omega) (by omega)).1
          intro _ _
          exact same_word (by omega)
      · have hl := same_decodeParams p q ts data off hn hd ho
        apply same_bind hl.1
        rintro ⟨toks, o⟩ h
        exact same_ok (hl.2 _ _ h)
theorem same_decodeParams (p q : Profile) : ∀ (ts : List ParamType) (data : Bytes) (off : Nat),
    narrowAll ts = true → data.length < 2 ^ 63 → off ≤ 2 ^ 63 + 31 → Same (decodeParams p ts data off) (decodeParams q ts data off)
  | [], data, off, _, _, ho => same_ok ho
  | t :: ts, data, off, hn, hd, ho => by
      simp only [narrowAll, Bool.and_eq_true] at hn
      rw [decodeParams, decodeParams]
      have h1 := same_decodeParam p q t data off hn.1 hd ho
      apply same_bind h1.1
      rintro ⟨tok, o1⟩ e1
      have h2 := same_decodeParams p q ts data o1 hn.2 hd (h1.2 _ _ e1)
      apply same_bind h2.1
      rintro ⟨toks, o2⟩ e2
      exact same_ok (h2.2 _ _ e2)
end

theorem decode_profile (p q : Profile) (ts : List ParamType) (data : Bytes) (hn : narrowAll ts = true)
    (hd : data.length < 2 ^ 63) : decode p ts data = decode q ts data := by
  unfold decode
  rw [(same_decodeParams p q ts data 0 hn hd (by omega)).1]

end Ethabi
