import Verif.Proofs.JsonWrite
import Verif.Proofs.Contract
/-!
# Contracts written as texts and loaded again
-/
namespace Ethabi.JsonText
open JsonGrammar

mutual
theorem value_tight {fits : Str → Bool} : ∀ {d : Nat} {j : Json} {v : Str}, Value fits d j v → Value fits (nest j) j v
  | _, _, _, .null _ => .null _
  | _, _, _, .true _ => .true _
  | _, _, _, .false _ => .false _
  | _, _, _, .number h hf => .number h hf
  | _, _, _, .string h => .string h
  | _, _, _, .noItems h => .noItems h
  | _, _, _, .noEntries h => .noEntries h
  | _, _, _, .array h => .array (items_tight h)
  | _, _, _, .object h => .object (entries_tight h)
theorem items_tight {fits : Str → Bool} : ∀ {d : Nat} {xs : List Json} {s : Str}, Items fits d xs s → Items fits (nestItems xs) xs s
  | _, _, _, .one ha h hb => .one ha (value_mono (value_tight h) (Nat.le_max_left _ _)) hb
  | _, _, _, .more ha h hb ht => .more ha (value_mono (value_tight h) (Nat.le_max_left _ _)) hb
      (items_mono (items_tight ht) (Nat.le_max_right _ _))
theorem entries_tight {fits : Str → Bool} : ∀ {d : Nat} {fs : List (Str × Json)} {s : Str}, Entries fits d fs s →
    Entries fits (nestEntries fs) fs s
  | _, _, _, .one ha hk hb hc h he => .one ha hk hb hc (value_mono (value_tight h) (Nat.le_max_left _ _)) he
  | _, _, _, .more ha hk hb hc h he ht => .more ha hk hb hc (value_mono (value_tight h) (Nat.le_max_left _ _)) he
      (entries_mono (entries_tight ht) (Nat.le_max_right _ _))
end

/-- a value that is nested too deeply is not read -/
theorem value_deep {fits : Str → Bool} {D d n : Nat} {j : Json} {a v r : Str} (ha : Blank a) (h : Value fits D j v) (hd : d < nest j) :
    value fits n (d + 1) (a ++ (v ++ r)) = none := by
  cases hv : value fits n (d + 1) (a ++ (v ++ r)) with
  | none => rfl
  | some p =>
    exfalso
    obtain ⟨j', r'⟩ := p
    obtain ⟨a', v', ha', h', e⟩ := value_sound hv
    have hj : ∀ m, j ≠ .num m := by rintro m rfl; simp [nest] at hd
    have hhead : ∃ c t, v = c :: t ∧ isWs c = false ∧ c ∉ "-0123456789".toList := by
      cases h with
      | null => exact ⟨_, _, rfl, by decide, by decide⟩
      | true => exact ⟨_, _, rfl, by decide, by decide⟩
      | false => exact ⟨_, _, rfl, by decide, by decide⟩
      | number h hf => exact absurd rfl (hj _)
      | string h => exact ⟨_, _, rfl, by decide, by decide⟩
      | noItems h => exact ⟨_, _, rfl, by decide, by decide⟩
      | array h => exact ⟨_, _, rfl, by decide, by decide⟩
      | noEntries h => exact ⟨_, _, rfl, by decide, by decide⟩
      | object h => exact ⟨_, _, rfl, by decide, by decide⟩
    have hj' : ∀ m, j' ≠ .num m := by
      rintro m rfl
      obtain ⟨c, t, rfl, hc, hn⟩ := hhead
      cases h' with
      | number h hf =>
        obtain ⟨c', u, rfl, hc'⟩ := number_head h
        have key : ∀ c ∈ "-0123456789".toList, isWs c = false := by decide
        have := congrArg skipWs e
        rw [List.cons_append, List.cons_append, skipWs_blank ha (tight_cons hc), skipWs_blank ha' (tight_cons (key c' hc'))] at this
        have hcc := (List.cons.inj this).1
        rw [hcc] at hn
        exact hn hc'
    obtain ⟨rfl, _⟩ := value_unique ha ha' h h' (.inr hj) (.inr hj') e
    have := value_nest h'
    omega

/-- the loop stops with an error at the first element nested too deeply -/
theorem loadLoop_deep {fits : Str → Bool} {D : Nat} {xs : List Json} {t : Str} (h : Items fits D xs t)
    (hok : ∀ x ∈ xs, ∃ op, deOperation x = .ok op) (hdeep : ∃ x ∈ xs, 126 < nest x) : ∀ (n : Nat) (r : Str) (c : Contract),
      loadLoop fits n (t ++ ']' :: r) c = .err .serdeJson := by
  induction xs generalizing t with
  | nil => cases h
  | cons x xs ih =>
    intro n r c
    cases n with
    | zero => rfl
    | succ n =>
    by_cases hx : 126 < nest x
    · cases h with
      | one ha h hb =>
        rename_i a s b
        have e : a ++ (s ++ b) ++ ']' :: r = a ++ (s ++ (b ++ ']' :: r)) := by simp
        rw [e, loadLoop, value_deep ha h hx]
      | more ha h hb ht =>
        rename_i a s b t
        have e : a ++ (s ++ (b ++ ',' :: t)) ++ ']' :: r = a ++ (s ++ (b ++ ',' :: (t ++ ']' :: r))) := by simp
        rw [e, loadLoop, value_deep ha h hx]
    · have hdeep' : ∃ x ∈ xs, 126 < nest x := by
        obtain ⟨y, hy, hn⟩ := hdeep
        rcases List.mem_cons.1 hy with rfl | hy
        · exact absurd hn hx
        · exact ⟨y, hy, hn⟩
      obtain ⟨op, hop⟩ := hok x List.mem_cons_self
      cases h with
      | one ha h hb => obtain ⟨y, hy, _⟩ := hdeep'; cases hy
      | more ha h hb ht =>
        rename_i a s b t
        have e : a ++ (s ++ (b ++ ',' :: t)) ++ ']' :: r = a ++ (s ++ (b ++ ',' :: (t ++ ']' :: r))) := by simp
        rw [e, loadLoop, value_complete (value_mono (value_tight h) (Nat.le_of_not_lt hx)) _ a (b ++ ',' :: (t ++ ']' :: r)) ha
          (.inl <| stops_blank hb (.inl rfl)) (by simp [fuel]; omega)]
        dsimp only
        rw [hop, skipWs_blank hb (tight_cons (by decide))]
        exact ih ht (fun y hy => hok y (List.mem_cons_of_mem _ hy)) hdeep' n r (c.add op)

/-- an array whose elements are operations, written at any depth -/
theorem load_deep {fits : Str → Bool} {D : Nat} {xs : List Json} {a v b : Str} (ha : Blank a) (hv : Value fits D (.arr xs) v)
    (hok : ∀ x ∈ xs, ∃ op, deOperation x = .ok op) (hdeep : ∃ x ∈ xs, 126 < nest x) :
    load fits (a ++ (v ++ b)) = .err .serdeJson := by
  cases hv with
  | noItems h => obtain ⟨y, hy, _⟩ := hdeep; cases hy
  | array h =>
    rename_i d s
    have e : '[' :: (s ++ [']']) ++ b = '[' :: (s ++ ']' :: b) := by simp
    rw [e, load, skipWs_blank ha (tight_cons (by decide))]
    dsimp only
    obtain ⟨w, c, t, hw, hs, h1, h2⟩ := items_head h
    have hw' : skipWs (s ++ ']' :: b) = c :: (t ++ ']' :: b) := by
      rw [hs, List.append_assoc, List.cons_append, skipWs_blank hw (tight_cons h1)]
    rw [if_neg (by decide), hw', if_neg (by simpa using h2), loadLoop_deep h hok hdeep]
    rfl

/-! ## The JSON of contracts -/

theorem nestItems_le {d : Nat} : ∀ {xs : List Json}, nestItems xs ≤ d ↔ ∀ x ∈ xs, nest x ≤ d
  | [] => by simp [nestItems]
  | x :: xs => by rw [nestItems, Nat.max_le, nestItems_le]; simp

theorem nestEntries_append : ∀ (a b : List (Str × Json)), nestEntries (a ++ b) = max (nestEntries a) (nestEntries b)
  | [], b => by simp [nestEntries]
  | (k, x) :: a, b => by rw [List.cons_append, nestEntries, nestEntries, nestEntries_append a b]; omega

theorem nest_optEntry (k : Str) (s : Option Str) : nestEntries (optEntry k s) = 0 := by cases s <;> rfl

mutual
theorem nest_components : ∀ t : ParamType, nestEntries (componentsField (serComponents t)) + 1 = layers t
  | .array t => by rw [serComponents, layers]; exact nest_components t
  | .fixedArray t _ => by rw [serComponents, layers]; exact nest_components t
  | .tuple ts => by
      rw [serComponents, layers, componentsField, nestEntries, nestEntries, nest, nest_members ts]; omega
  | .address => rfl
  | .bytes => rfl
  | .int _ => rfl
  | .uint _ => rfl
  | .bool => rfl
  | .string => rfl
  | .fixedBytes _ => rfl
theorem nest_members : ∀ ts : List ParamType, nestItems (serMembers ts) = mostLayers ts
  | [] => rfl
  | t :: ts => by
      have h := nest_components t
      have e : nest (.str (writeForAbi false t)) = 0 := rfl
      rw [serMembers, nestItems, mostLayers, nest, nestEntries, e, nest_members ts, Nat.zero_max, h]
end

theorem nest_serParam (p : Param) : nest (serParam p) = layers p.kind := by
  have h := nest_components p.kind
  rw [serParam, nest, nestEntries_append, nestEntries_append, nest_optEntry, componentsEntry]
  have e : nestEntries [(lit "name", .str p.name), (lit "type", .str (writeForAbi false p.kind))] = 0 := rfl
  rw [e]; omega

theorem nest_serEventParam (p : EventParam) : nest (serEventParam p) = layers p.kind := by
  have h := nest_components p.kind
  rw [serEventParam, nest, nestEntries_append, componentsEntry]
  have e : nestEntries [(lit "name", .str p.name), (lit "type", .str (writeForAbi false p.kind)), (lit "indexed", .bool p.indexed)] = 0 := rfl
  rw [e]; omega

theorem nest_params {ps : List Param} {d : Nat} : nestItems (ps.map serParam) ≤ d ↔ ∀ p ∈ ps, layers p.kind ≤ d := by
  rw [nestItems_le]; simp [nest_serParam]

theorem nest_eventParams {ps : List EventParam} {d : Nat} :
    nestItems (ps.map serEventParam) ≤ d ↔ ∀ p ∈ ps, layers p.kind ≤ d := by
  rw [nestItems_le]; simp [nest_serEventParam]

theorem nest_mutability (m : StateMutability) : nest (serStateMutability m) = 0 := by cases m <;> rfl

/-- the types of an element of a contract -/
def kindsOf : Operation → List ParamType
  | .constructor k => k.inputs.map (·.kind)
  | .function f => (f.inputs ++ f.outputs).map (·.kind)
  | .event e => e.inputs.map (·.kind)
  | .fallback => []
  | .receive => []

theorem nest_operation (op : Operation) : nest (serOperation op) ≤ 126 ↔ ∀ t ∈ kindsOf op, layers t ≤ 124 := by
  cases op with
  | constructor k =>
    have e : nest (serOperation (.constructor k)) = nestItems (k.inputs.map serParam) + 2 := by
      simp only [serOperation, constructorFields, nest, nestEntries]; omega
    have h := nest_params (ps := k.inputs) (d := 124)
    rw [e, show nestItems (k.inputs.map serParam) + 2 ≤ 126 ↔ nestItems (k.inputs.map serParam) ≤ 124 by omega, h]
    simp [kindsOf]
  | function f =>
    have e : nest (serOperation (.function f)) = max (nestItems (f.inputs.map serParam)) (nestItems (f.outputs.map serParam)) + 2 := by
      simp only [serOperation, functionFields, nest, nestEntries, nest_mutability]; omega
    have h1 := nest_params (ps := f.inputs) (d := 124)
    have h2 := nest_params (ps := f.outputs) (d := 124)
    rw [e, show ∀ a b : Nat, max a b + 2 ≤ 126 ↔ a ≤ 124 ∧ b ≤ 124 by omega, h1, h2]
    simp only [kindsOf, List.map_append, List.mem_append, List.mem_map]
    constructor
    · rintro ⟨h1, h2⟩ t (⟨p, hp, rfl⟩ | ⟨p, hp, rfl⟩)
      · exact h1 p hp
      · exact h2 p hp
    · exact fun h => ⟨fun p hp => h _ (.inl ⟨p, hp, rfl⟩), fun p hp => h _ (.inr ⟨p, hp, rfl⟩)⟩
  | event k =>
    have e : nest (serOperation (.event k)) = nestItems (k.inputs.map serEventParam) + 2 := by
      simp only [serOperation, eventFields, nest, nestEntries]; omega
    have h := nest_eventParams (ps := k.inputs) (d := 124)
    rw [e, show nestItems (k.inputs.map serEventParam) + 2 ≤ 126 ↔ nestItems (k.inputs.map serEventParam) ≤ 124 by omega, h]
    simp [kindsOf]
  | fallback => exact ⟨fun _ _ h => (by cases h), fun _ => by decide⟩
  | receive => exact ⟨fun _ _ h => (by cases h), fun _ => by decide⟩

theorem declares_iff (c : Contract) (t : ParamType) : Declares c t ↔ ∃ op ∈ c.operations, t ∈ kindsOf op := by
  constructor
  · rintro (⟨k, p, hk, hp, rfl⟩ | ⟨e, f, p, he, hf, hp, rfl⟩ | ⟨e, f, p, he, hf, hp, rfl⟩)
    · refine ⟨.constructor k, ?_, List.mem_map_of_mem hp⟩
      simp [Contract.operations, hk]
    · refine ⟨.function f, ?_, List.mem_map_of_mem hp⟩
      simp only [Contract.operations, List.mem_append, List.mem_flatMap]
      exact .inl (.inl (.inl (.inr ⟨e, he, List.mem_map_of_mem hf⟩)))
    · refine ⟨.event f, ?_, List.mem_map_of_mem hp⟩
      simp only [Contract.operations, List.mem_append, List.mem_flatMap]
      exact .inl (.inl (.inr ⟨e, he, List.mem_map_of_mem hf⟩))
  · rintro ⟨op, hop, ht⟩
    simp only [Contract.operations, List.mem_append, List.mem_flatMap] at hop
    rcases hop with (((h | ⟨e, he, h⟩) | ⟨e, he, h⟩) | h) | h
    · cases hk : c.constructor with
      | none => rw [hk] at h; cases h
      | some k =>
        rw [hk] at h
        have h := List.mem_singleton.1 h
        subst h
        obtain ⟨p, hp, rfl⟩ := List.mem_map.1 ht
        exact .inl ⟨k, p, hk, hp, rfl⟩
    · obtain ⟨f, hf, rfl⟩ := List.mem_map.1 h
      obtain ⟨p, hp, rfl⟩ := List.mem_map.1 ht
      exact .inr (.inl ⟨e, f, p, he, hf, hp, rfl⟩)
    · obtain ⟨f, hf, rfl⟩ := List.mem_map.1 h
      obtain ⟨p, hp, rfl⟩ := List.mem_map.1 ht
      exact .inr (.inr ⟨e, f, p, he, hf, hp, rfl⟩)
    · split at h
      · have h := List.mem_singleton.1 h; subst h; cases ht
      · cases h
    · split at h
      · have h := List.mem_singleton.1 h; subst h; cases ht
      · cases h

theorem nest_contract (c : Contract) : nest (serContract c) ≤ 127 ↔ ∀ t, Declares c t → layers t ≤ 124 := by
  rw [serContract, nest, show ∀ n : Nat, n + 1 ≤ 127 ↔ n ≤ 126 by omega, nestItems_le]
  constructor
  · intro h t ht
    obtain ⟨op, hop, hk⟩ := (declares_iff c t).1 ht
    exact (nest_operation op).1 (h _ (List.mem_map_of_mem hop)) t hk
  · intro h x hx
    obtain ⟨op, hop, rfl⟩ := List.mem_map.1 hx
    exact (nest_operation op).2 fun t ht => h t ((declares_iff c t).2 ⟨op, hop, ht⟩)

/-! ## There are no numbers in it -/

theorem numbersItems {p : Int → Prop} : ∀ {xs : List Json}, (∀ x ∈ xs, NumbersAre p x) → NumbersAreItems p xs
  | [], _ => trivial
  | x :: _, h => ⟨h x List.mem_cons_self, numbersItems fun y hy => h y (List.mem_cons_of_mem _ hy)⟩

theorem numbersEntries {p : Int → Prop} : ∀ {a b : List (Str × Json)}, NumbersAreEntries p a → NumbersAreEntries p b →
    NumbersAreEntries p (a ++ b)
  | [], _, _, h => h
  | (_, _) :: _, _, h, h' => ⟨h.1, numbersEntries h.2 h'⟩

mutual
theorem numbers_components {p : Int → Prop} : ∀ t : ParamType, NumbersAreEntries p (componentsField (serComponents t))
  | .array t => by rw [serComponents]; exact numbers_components t
  | .fixedArray t _ => by rw [serComponents]; exact numbers_components t
  | .tuple ts => by rw [serComponents]; exact ⟨numbers_members ts, trivial⟩
  | .address => trivial
  | .bytes => trivial
  | .int _ => trivial
  | .uint _ => trivial
  | .bool => trivial
  | .string => trivial
  | .fixedBytes _ => trivial
theorem numbers_members {p : Int → Prop} : ∀ ts : List ParamType, NumbersAreItems p (serMembers ts)
  | [] => trivial
  | t :: ts => by rw [serMembers]; exact ⟨⟨trivial, numbers_components t⟩, numbers_members ts⟩
end

theorem numbers_opt {p : Int → Prop} (k : Str) (s : Option Str) : NumbersAreEntries p (optEntry k s) := by
  cases s
  · trivial
  · exact ⟨trivial, trivial⟩

theorem numbers_serParam {p : Int → Prop} (q : Param) : NumbersAre p (serParam q) :=
  numbersEntries (numbersEntries (numbers_opt _ _) ⟨trivial, trivial, trivial⟩) (numbers_components q.kind)

theorem numbers_serEventParam {p : Int → Prop} (q : EventParam) : NumbersAre p (serEventParam q) :=
  numbersEntries ⟨trivial, trivial, trivial, trivial⟩ (numbers_components q.kind)

theorem numbers_params {p : Int → Prop} (ps : List Param) : NumbersAre p (.arr (ps.map serParam)) :=
  numbersItems fun x hx => by obtain ⟨q, _, rfl⟩ := List.mem_map.1 hx; exact numbers_serParam q

theorem numbers_eventParams {p : Int → Prop} (ps : List EventParam) : NumbersAre p (.arr (ps.map serEventParam)) :=
  numbersItems fun x hx => by obtain ⟨q, _, rfl⟩ := List.mem_map.1 hx; exact numbers_serEventParam q

theorem numbers_mutability {p : Int → Prop} (m : StateMutability) : NumbersAre p (serStateMutability m) := by cases m <;> trivial

theorem numbers_operation {p : Int → Prop} : ∀ op : Operation, NumbersAre p (serOperation op)
  | .constructor k => ⟨trivial, numbers_params k.inputs, trivial⟩
  | .function f => ⟨trivial, trivial, numbers_params f.inputs, numbers_params f.outputs, trivial, numbers_mutability _, trivial⟩
  | .event e => ⟨trivial, trivial, numbers_eventParams e.inputs, trivial, trivial⟩
  | .fallback => ⟨trivial, trivial⟩
  | .receive => ⟨trivial, trivial⟩

theorem numbers_contract {p : Int → Prop} (c : Contract) : NumbersAre p (serContract c) :=
  numbersItems fun x hx => by obtain ⟨q, _, rfl⟩ := List.mem_map.1 hx; exact numbers_operation q

theorem text_write {fits : Str → Bool} {j : Json} (h : NumbersAre (fun n => fits (writeInt n) = true) j) (hn : nest j ≤ 127) :
    Text fits j (write j) :=
  ⟨[], write j, [], blank_nil, value_mono (value_write j h) hn, blank_nil, by simp⟩

theorem load_write {fits : Str → Bool} (c : Contract) (h : ∀ t, Declares c t → layers t ≤ 124) :
    load fits (write (serContract c)) = deContract (serContract c) :=
  load_text (text_write (numbers_contract c) ((nest_contract c).2 h))

theorem load_write_deep {fits : Str → Bool} (c : Contract) (hc : ContractOk c) (h : ∃ t, Declares c t ∧ 124 < layers t) :
    load fits (write (serContract c)) = .err .serdeJson := by
  have hv := value_write (fits := fits) (serContract c) (numbers_contract c)
  have := load_deep (b := []) blank_nil hv (fun x hx => by
    obtain ⟨op, hop, rfl⟩ := List.mem_map.1 hx
    exact ⟨op, deOperation_ser op (operations_ok hc op hop)⟩) (by
    obtain ⟨t, ht, hl⟩ := h
    obtain ⟨op, hop, hk⟩ := (declares_iff c t).1 ht
    refine ⟨_, List.mem_map_of_mem hop, Nat.lt_of_not_le fun hn => ?_⟩
    have := (nest_operation op).1 hn t hk
    omega)
  simpa using this

end Ethabi.JsonText
