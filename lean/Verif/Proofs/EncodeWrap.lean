import Verif.Proofs.Codec
import Verif.Spec.AbiWrap
/-! Release builds: the encoder produces the layout of `Spec.AbiWrap` with lengths and offsets modulo 2^32 (for C82). -/
namespace Ethabi.Wrap
open Spec (Part headSize dynamic dynamicAny hasType allHaveType haveTypes codable codableAll lowWord headsWith layoutWith
  encWith encAllWith encZipWith encodeArgsWith)

theorem machine_wrap (n : Nat) : machine .release 32 n = .ok (n % 2 ^ 32) := by
  by_cases h : n < 2 ^ 32
  · rw [machine_ok h, Nat.mod_eq_of_lt h]
  · rw [machine, if_neg h]

theorem add_wrap (a b : Nat) : u32add .release a b = .ok ((a + b) % 2 ^ 32) := machine_wrap _
theorem mul_wrap (a b : Nat) : u32mul .release a b = .ok ((a * b) % 2 ^ 32) := machine_wrap _

def Rep (m : Mediate) : Part → Prop
  | (false, b) => m.headLen .release = .ok (b.length % 2 ^ 32) ∧ m.tailLen .release = .ok 0
      ∧ (∀ off, flattenWords (m.head off) = b) ∧ m.tail .release = .ok []
  | (true, b) => m.headLen .release = .ok 32 ∧ m.tailLen .release = .ok (b.length % 2 ^ 32)
      ∧ (∀ off, m.head off = [padU32 off]) ∧ ∃ ws, m.tail .release = .ok ws ∧ flattenWords ws = b

abbrev RepAll := List.Forall₂ Rep

theorem repAll_length {ms : List Mediate} {ps : List Part} (h : RepAll ms ps) : ms.length = ps.length := by
  induction h with
  | nil => rfl
  | cons _ _ ih => simp [ih]

theorem length_lowWord (n : Nat) : (lowWord n).length = 32 := length_word _

theorem length_headsWith (ps : List Part) (off : Nat) : (headsWith lowWord ps off).length = headSize ps := by
  induction ps generalizing off with
  | nil => rfl
  | cons p ps ih =>
    obtain ⟨d, b⟩ := p
    cases d <;> simp [headsWith, headSize, ih, length_lowWord]

theorem length_layoutWith (ps : List Part) : (layoutWith lowWord ps).length = headSize ps + (Spec.tails ps).length := by
  simp [layoutWith, length_headsWith]

theorem sumHeadLen_rep {ms : List Mediate} {ps : List Part} (h : RepAll ms ps) (acc : Nat) :
    Mediate.sumHeadLen .release ms (acc % 2 ^ 32) = .ok ((acc + headSize ps) % 2 ^ 32) := by
  induction h generalizing acc with
  | nil => simp [Mediate.sumHeadLen, headSize]
  | @cons m p ms ps hr _ ih =>
    obtain ⟨d, b⟩ := p
    cases d
    · obtain ⟨h1, -, -, -⟩ := hr
      simp only [Mediate.sumHeadLen, h1, Res.ok_bind, add_wrap, headSize]
      rw [ih]; congr 1; omega
    · obtain ⟨h1, -, -, -⟩ := hr
      simp only [Mediate.sumHeadLen, h1, Res.ok_bind, add_wrap, headSize]
      rw [ih]; congr 1; omega

theorem sumLen_rep {ms : List Mediate} {ps : List Part} (h : RepAll ms ps) (acc : Nat) :
    Mediate.sumLen .release ms (acc % 2 ^ 32) = .ok ((acc + (layoutWith lowWord ps).length) % 2 ^ 32) := by
  rw [length_layoutWith]
  induction h generalizing acc with
  | nil => simp [Mediate.sumLen, headSize, Spec.tails]
  | @cons m p ms ps hr _ ih =>
    obtain ⟨d, b⟩ := p
    cases d
    · obtain ⟨h1, h2, -, -⟩ := hr
      simp only [Mediate.sumLen, h1, h2, Res.ok_bind, add_wrap, headSize, Spec.tails]
      rw [ih]; congr 1; omega
    · obtain ⟨h1, h2, -, -⟩ := hr
      simp only [Mediate.sumLen, h1, h2, Res.ok_bind, add_wrap, headSize, Spec.tails, List.length_append]
      rw [ih]; congr 1; omega

theorem padU32_low (n : Nat) : (padU32 (n % 2 ^ 32)).1 = lowWord n := padU32_val _ (Nat.mod_lt _ (by decide))

theorem heads_rep {ms : List Mediate} {ps : List Part} (h : RepAll ms ps) (acc : List Word) (off : Nat) :
    ∃ ws, Mediate.heads .release ms acc (off % 2 ^ 32) = .ok (acc ++ ws, (off + (Spec.tails ps).length) % 2 ^ 32)
      ∧ flattenWords ws = headsWith lowWord ps off := by
  induction h generalizing acc off with
  | nil => exact ⟨[], by simp [Mediate.heads, Spec.tails], rfl⟩
  | @cons m p ms ps hr _ ih =>
    obtain ⟨d, b⟩ := p
    cases d
    · obtain ⟨-, h2, h3, -⟩ := hr
      obtain ⟨ws, e1, e2⟩ := ih (acc ++ m.head (off % 2 ^ 32)) off
      refine ⟨m.head (off % 2 ^ 32) ++ ws, ?_, ?_⟩
      · simp only [Mediate.heads, h2, Res.ok_bind, add_wrap, Spec.tails]
        rw [show (off % 2 ^ 32 + 0) % 2 ^ 32 = off % 2 ^ 32 by omega, e1, List.append_assoc]
      · rw [flattenWords_append, h3, e2]; rfl
    · obtain ⟨-, h2, h3, -⟩ := hr
      obtain ⟨ws, e1, e2⟩ := ih (acc ++ m.head (off % 2 ^ 32)) (off + b.length)
      refine ⟨m.head (off % 2 ^ 32) ++ ws, ?_, ?_⟩
      · simp only [Mediate.heads, h2, Res.ok_bind, add_wrap, Spec.tails, List.length_append]
        rw [show (off % 2 ^ 32 + b.length % 2 ^ 32) % 2 ^ 32 = (off + b.length) % 2 ^ 32 by omega, e1, List.append_assoc,
          Nat.add_assoc]
      · rw [flattenWords_append, h3, e2, flattenWords_cons, padU32_low, flattenWords_nil, List.append_nil]; rfl

theorem tails_rep {ms : List Mediate} {ps : List Part} (h : RepAll ms ps) :
    ∃ ws, Mediate.tails .release ms = .ok ws ∧ flattenWords ws = Spec.tails ps := by
  induction h with
  | nil => exact ⟨[], rfl, rfl⟩
  | @cons m p ms ps hr _ ih =>
    obtain ⟨ws, e1, e2⟩ := ih
    obtain ⟨d, b⟩ := p
    cases d
    · obtain ⟨-, -, -, h4⟩ := hr
      exact ⟨ws, by simp [Mediate.tails, h4, e1], e2⟩
    · obtain ⟨-, -, -, us, h4, h5⟩ := hr
      exact ⟨us ++ ws, by simp [Mediate.tails, h4, e1], by rw [flattenWords_append, h5, e2]; rfl⟩

theorem encodeHeadTail_rep {ms : List Mediate} {ps : List Part} (h : RepAll ms ps) :
    ∃ ws, encodeHeadTail .release ms = .ok ws ∧ flattenWords ws = layoutWith lowWord ps := by
  obtain ⟨us, e1, e2⟩ := tails_rep h
  obtain ⟨ws, e3, e4⟩ := heads_rep h [] (headSize ps)
  refine ⟨ws ++ us, ?_, ?_⟩
  · have e0 := sumHeadLen_rep h 0
    rw [Nat.zero_add, Nat.zero_mod] at e0
    rw [encodeHeadTail, Mediate.assemble, e0, Res.ok_bind, e3, Res.ok_bind, e1]
    rfl
  · rw [flattenWords_append, e2, e4]; rfl

theorem rep_raw (ws : List Word) (b : Bytes) (e : flattenWords ws = b) : Rep (.raw ws) (false, b) := by
  subst e
  have hl := length_flattenWords ws
  refine ⟨?_, rfl, fun _ => rfl, rfl⟩
  rw [Mediate.headLen, mul_wrap, hl, asU32]; congr 1; omega

theorem rep_prefixed (b : Bytes) : Rep (.prefixed (padBytes b)) (true, lowWord b.length ++ Spec.padRight b) := by
  have e : flattenWords (padBytes b) = lowWord b.length ++ Spec.padRight b := by
    rw [padBytes, flattenWords_cons, asU32, padU32_low, flatten_padFixedBytes]
  have hl := length_flattenWords (padBytes b)
  rw [e] at hl
  refine ⟨rfl, ?_, fun _ => rfl, padBytes b, rfl, e⟩
  rw [Mediate.tailLen, mul_wrap, hl, asU32]; congr 1; omega

theorem static_headsWith {ps : List Part} (h : allStatic ps) (off : Nat) : headsWith lowWord ps off = ps.flatMap (·.2) := by
  induction ps with
  | nil => rfl
  | cons p ps ih =>
    obtain ⟨d, b⟩ := p
    have : d = false := h (d, b) (by simp)
    subst this
    simp [headsWith, ih (fun q hq => h q (by simp [hq]))]

theorem static_layoutWith {ps : List Part} (h : allStatic ps) : layoutWith lowWord ps = ps.flatMap (·.2) := by
  rw [layoutWith, static_headsWith h, (static_heads h 0).2, List.append_nil]

theorem headsZero_rep {ms : List Mediate} {ps : List Part} (h : RepAll ms ps)
    (hs : allStatic ps) : flattenWords (Mediate.headsZero ms) = ps.flatMap (·.2) := by
  induction h with
  | nil => rfl
  | @cons m p ms ps hr _ ih =>
    obtain ⟨d, b⟩ := p
    have : d = false := hs (d, b) (by simp)
    subst this
    obtain ⟨-, -, h3, -⟩ := hr
    rw [Mediate.headsZero, flattenWords_append, h3, ih (fun q hq => hs q (by simp [hq]))]; rfl

theorem rep_rawTuple {ms : List Mediate} {ps : List Part} (h : RepAll ms ps) (hs : allStatic ps) :
    Rep (.rawTuple ms) (false, layoutWith lowWord ps) := by
  have h1 : (layoutWith lowWord ps).length = headSize ps := by rw [length_layoutWith, (static_heads hs 0).2]; rfl
  have e0 := sumHeadLen_rep h 0
  rw [Nat.zero_add, Nat.zero_mod] at e0
  refine ⟨?_, rfl, fun _ => ?_, rfl⟩
  · rw [Mediate.headLen, e0, h1]
  · rw [Mediate.head, headsZero_rep h hs, static_layoutWith hs]

theorem rep_prefixedTuple {ms : List Mediate} {ps : List Part} (h : RepAll ms ps) :
    Rep (.prefixedTuple ms) (true, layoutWith lowWord ps) := by
  have e0 := sumLen_rep h 0
  rw [Nat.zero_add, Nat.zero_mod] at e0
  exact ⟨rfl, by rw [Mediate.tailLen, e0], fun _ => rfl, encodeHeadTail_rep h⟩

theorem rep_prefixedArray {ms : List Mediate} {ps : List Part} (h : RepAll ms ps) :
    Rep (.prefixedArray ms) (true, layoutWith lowWord ps) := by
  have e0 := sumLen_rep h 0
  rw [Nat.zero_add, Nat.zero_mod] at e0
  exact ⟨rfl, by rw [Mediate.tailLen, e0], fun _ => rfl, encodeHeadTail_rep h⟩

theorem rep_prefixedArrayWithLength {ms : List Mediate} {ps : List Part} (h : RepAll ms ps) :
    Rep (.prefixedArrayWithLength ms) (true, lowWord ms.length ++ layoutWith lowWord ps) := by
  obtain ⟨ws, e1, e2⟩ := encodeHeadTail_rep h
  have e0 := sumLen_rep h 32
  refine ⟨rfl, ?_, fun _ => rfl, padU32 (asU32 ms.length) :: ws, ?_, ?_⟩
  · rw [Mediate.tailLen, List.length_append, length_lowWord]; exact e0
  · rw [encodeHeadTail] at e1
    rw [Mediate.tail, e1, Res.ok_bind]
  · rw [flattenWords_cons, e2, asU32, padU32_low]

theorem allStatic_encAllWith (w : Nat → Bytes) (toks : List Token) (t : ParamType) (h : dynamic t = false) :
    allStatic (encAllWith w toks t) := by
  induction toks with
  | nil => intro p hp; simp [encAllWith] at hp
  | cons tok toks ih =>
    intro p hp
    simp only [encAllWith, List.mem_cons] at hp
    rcases hp with rfl | hp
    · exact h
    · exact ih p hp

theorem allStatic_encZipWith (w : Nat → Bytes) (toks : List Token) (ts : List ParamType) (h : dynamicAny ts = false) :
    allStatic (encZipWith w toks ts) := by
  induction toks generalizing ts with
  | nil => intro p hp; cases ts <;> simp [encZipWith] at hp
  | cons tok toks ih =>
    cases ts with
    | nil => intro p hp; simp [encZipWith] at hp
    | cons t ts =>
      simp only [dynamicAny, Bool.or_eq_false_iff] at h
      intro p hp
      simp only [encZipWith, List.mem_cons] at hp
      rcases hp with rfl | hp
      · exact h.1
      · exact ih ts h.2 p hp

theorem length_encAllWith (w : Nat → Bytes) (toks : List Token) (t : ParamType) : (encAllWith w toks t).length = toks.length := by
  induction toks with
  | nil => rfl
  | cons _ _ ih => simp [encAllWith, ih]

mutual
theorem rep_token : ∀ (tok : Token) (t : ParamType), hasType tok t = true → codable t = true →
    ∃ m, encodeToken .release tok = .ok m ∧ Rep m (dynamic t, encWith lowWord tok t)
  | .address a, t, ht, _ => by
      cases t <;> simp only [hasType, Bool.false_eq_true] at ht
      exact ⟨_, rfl, rep_raw _ _ (by simp [padAddress, encWith])⟩
  | .uint v, t, ht, _ => by
      cases t <;> simp only [hasType, Bool.false_eq_true] at ht
      exact ⟨_, rfl, rep_raw _ _ (by rw [flattenWords_cons, toWord_val, flattenWords_nil, List.append_nil, encWith])⟩
  | .int v, t, ht, _ => by
      cases t <;> simp only [hasType, Bool.false_eq_true] at ht
      exact ⟨_, rfl, rep_raw _ _ (by rw [flattenWords_cons, toWord_val, flattenWords_nil, List.append_nil, encWith])⟩
  | .bool b, t, ht, _ => by
      cases t <;> simp only [hasType, Bool.false_eq_true] at ht
      exact ⟨_, rfl, rep_raw _ _ (by rw [flattenWords_cons, padBool_val, flattenWords_nil, List.append_nil, encWith])⟩
  | .fixedBytes b, t, ht, _ => by
      cases t <;> simp only [hasType, Bool.false_eq_true] at ht
      exact ⟨_, rfl, rep_raw _ _ (by rw [flatten_padFixedBytes, encWith])⟩
  | .bytes b, t, ht, _ => by
      cases t <;> simp only [hasType, Bool.false_eq_true] at ht
      simp only [encWith]
      exact ⟨_, rfl, rep_prefixed b⟩
  | .string s, t, ht, _ => by
      cases t <;> simp only [hasType, Bool.false_eq_true] at ht
      simp only [encWith, ← utf8_eq_core]
      exact ⟨_, rfl, rep_prefixed (utf8 s)⟩
  | .array ts, t, ht, hc => by
      cases t <;> simp only [hasType, Bool.false_eq_true] at ht
      rename_i t
      simp only [codable] at hc
      obtain ⟨ms, e, h⟩ := rep_all ts t ht hc
      have hl : ms.length = ts.length := by rw [repAll_length h, length_encAllWith]
      refine ⟨.prefixedArrayWithLength ms, by simp [encodeToken, e], ?_⟩
      simp only [encWith, dynamic, ← hl]
      exact rep_prefixedArrayWithLength h
  | .fixedArray ts, t, ht, hc => by
      have hdyn := isDynamic_eq _ _ ht hc
      cases t <;> simp only [hasType, Bool.false_eq_true] at ht
      rename_i t n
      simp only [codable, Bool.and_eq_true] at hc
      simp only [Bool.and_eq_true] at ht
      obtain ⟨ms, e, h⟩ := rep_all ts t ht.2 hc.1
      simp only [Token.isDynamic, dynamic] at hdyn
      simp only [encodeToken, e, Res.ok_bind, hdyn, dynamic, encWith]
      cases hd : dynamic t
      · obtain ⟨ws, e1, e2⟩ := encodeHeadTail_rep h
        exact ⟨.raw ws, by simp [e1], rep_raw _ _ e2⟩
      · exact ⟨_, rfl, rep_prefixedArray h⟩
  | .tuple ts, t, ht, hc => by
      have hdyn := isDynamic_eq _ _ ht hc
      cases t <;> simp only [hasType, Bool.false_eq_true] at ht
      rename_i ps
      simp only [codable] at hc
      obtain ⟨ms, e, h⟩ := rep_zip ts ps ht hc
      simp only [Token.isDynamic, dynamic] at hdyn
      simp only [encodeToken, e, Res.ok_bind, hdyn, dynamic, encWith]
      cases hd : dynamicAny ps
      · exact ⟨_, rfl, rep_rawTuple h (allStatic_encZipWith _ ts ps hd)⟩
      · exact ⟨_, rfl, rep_prefixedTuple h⟩
theorem rep_all : ∀ (toks : List Token) (t : ParamType), allHaveType toks t = true → codable t = true →
    ∃ ms, encodeTokens .release toks = .ok ms ∧ RepAll ms (encAllWith lowWord toks t)
  | [], _, _, _ => ⟨[], rfl, .nil⟩
  | tok :: toks, t, ht, hc => by
      simp only [allHaveType, Bool.and_eq_true] at ht
      obtain ⟨m, e1, r1⟩ := rep_token tok t ht.1 hc
      obtain ⟨ms, e2, r2⟩ := rep_all toks t ht.2 hc
      exact ⟨m :: ms, by simp [encodeTokens, e1, e2], .cons r1 r2⟩
theorem rep_zip : ∀ (toks : List Token) (ts : List ParamType), haveTypes toks ts = true → codableAll ts = true →
    ∃ ms, encodeTokens .release toks = .ok ms ∧ RepAll ms (encZipWith lowWord toks ts)
  | [], [], _, _ => ⟨[], rfl, .nil⟩
  | [], _ :: _, ht, _ => by simp [haveTypes] at ht
  | _ :: _, [], ht, _ => by simp [haveTypes] at ht
  | tok :: toks, t :: ts, ht, hc => by
      simp only [haveTypes, Bool.and_eq_true] at ht
      simp only [codableAll, Bool.and_eq_true] at hc
      obtain ⟨m, e1, r1⟩ := rep_token tok t ht.1 hc.1
      obtain ⟨ms, e2, r2⟩ := rep_zip toks ts ht.2 hc.2
      exact ⟨m :: ms, by simp [encodeTokens, e1, e2], .cons r1 r2⟩
end

theorem encode_wrap (toks : List Token) (ts : List ParamType) (ht : haveTypes toks ts = true) (hc : codableAll ts = true) :
    encode .release toks = .ok (encodeArgsWith lowWord toks ts) := by
  obtain ⟨ms, e, h⟩ := rep_zip toks ts ht hc
  obtain ⟨ws, e1, e2⟩ := encodeHeadTail_rep h
  rw [encode, e, Res.ok_bind, e1, Res.ok_bind, e2]
  rfl

/-! ### with `word` it is the specified layout -/

theorem headsWith_word : ∀ (ps : List Part) (off : Nat), headsWith Spec.word ps off = Spec.heads ps off
  | [], _ => rfl
  | (true, b) :: ps, off => by rw [headsWith, Spec.heads, headsWith_word ps]
  | (false, b) :: ps, off => by rw [headsWith, Spec.heads, headsWith_word ps]

theorem layoutWith_word (ps : List Part) : layoutWith Spec.word ps = Spec.layout ps := by
  rw [layoutWith, headsWith_word]; rfl

mutual
theorem encWith_word : ∀ (tok : Token) (t : ParamType), encWith Spec.word tok t = Spec.enc tok t
  | .address _, t => by cases t <;> rfl
  | .uint _, t => by cases t <;> rfl
  | .int _, t => by cases t <;> rfl
  | .bool _, t => by cases t <;> rfl
  | .fixedBytes _, t => by cases t <;> rfl
  | .bytes _, t => by cases t <;> rfl
  | .string _, t => by cases t <;> rfl
  | .array ts, t => by
      cases t <;> first | rfl | skip
      simp only [encWith, Spec.enc, layoutWith_word, encAllWith_word ts]
  | .fixedArray ts, t => by
      cases t <;> first | rfl | skip
      simp only [encWith, Spec.enc, layoutWith_word, encAllWith_word ts]
  | .tuple ts, t => by
      cases t <;> first | rfl | skip
      simp only [encWith, Spec.enc, layoutWith_word, encZipWith_word ts]
theorem encAllWith_word : ∀ (toks : List Token) (t : ParamType), encAllWith Spec.word toks t = Spec.encAll toks t
  | [], _ => rfl
  | tok :: toks, t => by rw [encAllWith, Spec.encAll, encWith_word tok, encAllWith_word toks]
theorem encZipWith_word : ∀ (toks : List Token) (ts : List ParamType), encZipWith Spec.word toks ts = Spec.encZip toks ts
  | [], ts => by cases ts <;> rfl
  | _ :: _, [] => rfl
  | tok :: toks, t :: ts => by rw [encZipWith, Spec.encZip, encWith_word tok, encZipWith_word toks]
end

theorem encodeArgsWith_word (toks : List Token) (ts : List ParamType) :
    encodeArgsWith Spec.word toks ts = Spec.encodeArgs toks ts := by
  rw [encodeArgsWith, layoutWith_word, encZipWith_word]; rfl

/-! ### when the two layouts are equal -/

/-- same kind, same length -/
def Alike (p q : Part) : Prop := p.1 = q.1 ∧ p.2.length = q.2.length

theorem alike_headSize {ps qs : List Part} (h : List.Forall₂ Alike ps qs) : headSize ps = headSize qs := by
  induction h with
  | nil => rfl
  | @cons p q ps qs h _ ih =>
    obtain ⟨d, b⟩ := p; obtain ⟨d', c⟩ := q
    obtain ⟨h1, h2⟩ := h
    simp only at h1 h2; subst h1
    cases d <;> simp [headSize, ih, h2]

theorem alike_tails {ps qs : List Part} (h : List.Forall₂ Alike ps qs) : (Spec.tails ps).length = (Spec.tails qs).length := by
  induction h with
  | nil => rfl
  | @cons p q ps qs h _ ih =>
    obtain ⟨d, b⟩ := p; obtain ⟨d', c⟩ := q
    obtain ⟨h1, h2⟩ := h
    simp only at h1 h2; subst h1
    cases d <;> simp [Spec.tails, ih, h2]

theorem alike_layout {ps qs : List Part} (h : List.Forall₂ Alike ps qs) :
    (layoutWith lowWord ps).length = (Spec.layout qs).length := by
  rw [length_layoutWith, length_layout, alike_headSize h, alike_tails h]

theorem alike_heads {ps qs : List Part} (h : List.Forall₂ Alike ps qs) (off : Nat) :
    headsWith lowWord ps off ++ Spec.tails ps = Spec.heads qs off ++ Spec.tails qs ↔
      (∀ n ∈ Spec.offsets qs off, lowWord n = Spec.word n) ∧ ps = qs := by
  have key : headsWith lowWord ps off ++ Spec.tails ps = Spec.heads qs off ++ Spec.tails qs ↔
      headsWith lowWord ps off = Spec.heads qs off ∧ Spec.tails ps = Spec.tails qs := by
    constructor
    · intro e; exact List.append_inj e (by rw [length_headsWith, length_heads, alike_headSize h])
    · rintro ⟨e1, e2⟩; rw [e1, e2]
  rw [key]; clear key
  induction h generalizing off with
  | nil => simp [headsWith, Spec.heads, Spec.offsets]
  | @cons p q ps qs h hs ih =>
    obtain ⟨d, b⟩ := p; obtain ⟨d', c⟩ := q
    obtain ⟨h1, h2⟩ := h
    simp only at h1 h2; subst h1
    have inj : ∀ {a a' x x' : Bytes}, a.length = a'.length → (a ++ x = a' ++ x' ↔ a = a' ∧ x = x') := fun hl =>
      ⟨fun e => List.append_inj e hl, fun ⟨e1, e2⟩ => by rw [e1, e2]⟩
    cases d
    · simp only [headsWith, Spec.heads, Spec.tails, Spec.offsets]
      rw [inj h2]
      constructor
      · rintro ⟨⟨h3, h4⟩, h5⟩
        obtain ⟨h6, h7⟩ := (ih off).1 ⟨h4, h5⟩
        exact ⟨h6, by rw [h3, h7]⟩
      · rintro ⟨h3, h4⟩
        simp only [List.cons.injEq, Prod.mk.injEq, true_and] at h4
        obtain ⟨h6, h7⟩ := (ih off).2 ⟨h3, h4.2⟩
        exact ⟨⟨h4.1, h6⟩, h7⟩
    · simp only [headsWith, Spec.heads, Spec.tails, Spec.offsets, List.forall_mem_cons]
      rw [inj (by rw [length_lowWord, length_word]), inj h2, h2]
      constructor
      · rintro ⟨⟨h3, h4⟩, h5, h6⟩
        obtain ⟨h7, h8⟩ := (ih _).1 ⟨h4, h6⟩
        exact ⟨⟨h3, h7⟩, by rw [h5, h8]⟩
      · rintro ⟨⟨h3, h4⟩, h5⟩
        simp only [List.cons.injEq, Prod.mk.injEq, true_and] at h5
        obtain ⟨h7, h8⟩ := (ih _).2 ⟨h4, h5.2⟩
        exact ⟨⟨h3, h7⟩, h5.1, h8⟩

theorem layout_iff {ps qs : List Part} (h : List.Forall₂ Alike ps qs) : layoutWith lowWord ps = Spec.layout qs ↔
    (∀ n ∈ Spec.offsets qs (headSize qs), lowWord n = Spec.word n) ∧ ps = qs := by
  rw [layoutWith, Spec.layout, alike_headSize h, alike_heads h]

mutual
theorem alike_enc : ∀ (tok : Token) (t : ParamType), (encWith lowWord tok t).length = (Spec.enc tok t).length
  | .address _, t => by cases t <;> rfl
  | .uint _, t => by cases t <;> rfl
  | .int _, t => by cases t <;> rfl
  | .bool _, t => by cases t <;> rfl
  | .fixedBytes _, t => by cases t <;> rfl
  | .bytes _, t => by cases t <;> first | rfl | simp [encWith, Spec.enc, length_lowWord, length_word]
  | .string _, t => by cases t <;> first | rfl | simp [encWith, Spec.enc, length_lowWord, length_word]
  | .array ts, t => by
      cases t <;> first | rfl | skip
      simp only [encWith, Spec.enc, List.length_append, length_lowWord, length_word, alike_layout (alike_all ts _)]
  | .fixedArray ts, t => by
      cases t <;> first | rfl | skip
      simp only [encWith, Spec.enc, alike_layout (alike_all ts _)]
  | .tuple ts, t => by
      cases t <;> first | rfl | skip
      simp only [encWith, Spec.enc, alike_layout (alike_zip ts _)]
theorem alike_all : ∀ (toks : List Token) (t : ParamType), List.Forall₂ Alike (encAllWith lowWord toks t) (Spec.encAll toks t)
  | [], _ => .nil
  | tok :: toks, t => .cons ⟨rfl, alike_enc tok t⟩ (alike_all toks t)
theorem alike_zip : ∀ (toks : List Token) (ts : List ParamType),
    List.Forall₂ Alike (encZipWith lowWord toks ts) (Spec.encZip toks ts)
  | [], ts => by cases ts <;> exact .nil
  | _ :: _, [] => .nil
  | tok :: toks, t :: ts => .cons ⟨rfl, alike_enc tok t⟩ (alike_zip toks ts)
end

theorem word_append_iff {a : Nat} {x y : Bytes} : lowWord a ++ x = Spec.word a ++ y ↔ lowWord a = Spec.word a ∧ x = y :=
  ⟨fun e => List.append_inj e (by rw [length_lowWord, length_word]), fun ⟨e1, e2⟩ => by rw [e1, e2]⟩

mutual
theorem enc_iff : ∀ (tok : Token) (t : ParamType), encWith lowWord tok t = Spec.enc tok t ↔
    ∀ n ∈ Spec.numbers tok t, lowWord n = Spec.word n
  | .address _, t => by cases t <;> simp [encWith, Spec.enc, Spec.numbers]
  | .uint _, t => by cases t <;> simp [encWith, Spec.enc, Spec.numbers]
  | .int _, t => by cases t <;> simp [encWith, Spec.enc, Spec.numbers]
  | .bool _, t => by cases t <;> simp [encWith, Spec.enc, Spec.numbers]
  | .fixedBytes _, t => by cases t <;> simp [encWith, Spec.enc, Spec.numbers]
  | .bytes _, t => by cases t <;> simp [encWith, Spec.enc, Spec.numbers]
  | .string _, t => by cases t <;> simp [encWith, Spec.enc, Spec.numbers]
  | .array ts, t => by
      cases t <;> first | (simp [encWith, Spec.enc, Spec.numbers]; done) | skip
      rename_i t
      simp only [encWith, Spec.enc, Spec.numbers, word_append_iff, layout_iff (alike_all ts t), all_iff ts t, List.forall_mem_cons,
        List.forall_mem_append]
  | .fixedArray ts, t => by
      cases t <;> first | (simp [encWith, Spec.enc, Spec.numbers]; done) | skip
      rename_i t _
      simp only [encWith, Spec.enc, Spec.numbers, layout_iff (alike_all ts t), all_iff ts t, List.forall_mem_append]
  | .tuple ts, t => by
      cases t <;> first | (simp [encWith, Spec.enc, Spec.numbers]; done) | skip
      rename_i ps
      simp only [encWith, Spec.enc, Spec.numbers, layout_iff (alike_zip ts ps), zip_iff ts ps, List.forall_mem_append]
theorem all_iff : ∀ (toks : List Token) (t : ParamType), encAllWith lowWord toks t = Spec.encAll toks t ↔
    ∀ n ∈ Spec.numbersAll toks t, lowWord n = Spec.word n
  | [], _ => by simp [encAllWith, Spec.encAll, Spec.numbersAll]
  | tok :: toks, t => by
      simp only [encAllWith, Spec.encAll, Spec.numbersAll, List.cons.injEq, Prod.mk.injEq, true_and, enc_iff tok t, all_iff toks t,
        List.forall_mem_append]
theorem zip_iff : ∀ (toks : List Token) (ts : List ParamType), encZipWith lowWord toks ts = Spec.encZip toks ts ↔
    ∀ n ∈ Spec.numbersZip toks ts, lowWord n = Spec.word n
  | [], ts => by cases ts <;> simp [encZipWith, Spec.encZip, Spec.numbersZip]
  | _ :: _, [] => by simp [encZipWith, Spec.encZip, Spec.numbersZip]
  | tok :: toks, t :: ts => by
      simp only [encZipWith, Spec.encZip, Spec.numbersZip, List.cons.injEq, Prod.mk.injEq, true_and, enc_iff tok t, zip_iff toks ts,
        List.forall_mem_append]
end

theorem args_iff (toks : List Token) (ts : List ParamType) : encodeArgsWith lowWord toks ts = Spec.encodeArgs toks ts ↔
    ∀ n ∈ Spec.numbersOf toks ts, lowWord n = Spec.word n := by
  simp only [encodeArgsWith, Spec.encodeArgs, Spec.numbersOf, layout_iff (alike_zip toks ts), zip_iff, List.forall_mem_append]

theorem alike_args (toks : List Token) (ts : List ParamType) :
    (encodeArgsWith lowWord toks ts).length = (Spec.encodeArgs toks ts).length := alike_layout (alike_zip toks ts)

theorem lowWord_iff {n : Nat} (h : n < 2 ^ 256) : lowWord n = Spec.word n ↔ n < 2 ^ 32 := by
  constructor
  · intro e
    have hm : n % 2 ^ 32 < 2 ^ 32 := Nat.mod_lt _ (by decide)
    have := word_inj (Nat.lt_trans hm (by decide)) h e
    omega
  · intro h; rw [lowWord, Nat.mod_eq_of_lt h]

end Ethabi.Wrap
