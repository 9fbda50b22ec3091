import Verif.Spec.DeriveEntry
import Verif.Spec.Generated
import Verif.Proofs.GenerateItems
/-! # Lemmas on the entry point of the code generator -/
namespace Ethabi.DeriveEntry
open Spec

theorem isIdent_iff (p : MetaPath) (name : Str) : p.isIdent name = true ↔ p = ⟨false, [name]⟩ := by
  obtain ⟨l, s⟩ := p
  cases l <;> simp [MetaPath.isIdent]

theorem named_iff (name : Str) (m : Meta) : m.name.isIdent name = true ↔ Named name m := by
  rw [isIdent_iff]
  cases m with
  | path p => constructor
              · intro h; simp only [Meta.name] at h; subst h; exact .path
              · intro h; cases h; rfl
  | list p n => constructor
                · intro h; simp only [Meta.name] at h; subst h; exact .list n
                · intro h; cases h; rfl
  | nameValue p v => constructor
                     · intro h; simp only [Meta.name] at h; subst h; exact .nameValue v
                     · intro h; cases h; rfl

theorem find_iff (name : Str) (ms : List Meta) (m : Meta) :
    (ms.find? fun m => m.name.isIdent name) = some m ↔ FirstNamed name ms m := by
  rw [List.find?_eq_some_iff_append]
  unfold FirstNamed
  constructor
  · rintro ⟨h1, as, bs, h2, h3⟩
    exact ⟨as, bs, h2, (named_iff name m).1 h1, fun x hx hn => by
      have := h3 x hx
      rw [(named_iff name x).2 hn] at this
      cases this⟩
  · rintro ⟨as, bs, h2, h1, h3⟩
    refine ⟨(named_iff name m).2 h1, as, bs, h2, fun x hx => ?_⟩
    cases hb : x.name.isIdent name with
    | false => rfl
    | true => exact absurd ((named_iff name x).1 hb) (h3 x hx)

theorem parsed_iff : ∀ (as : List Attribute) (ms : List Meta), Parsed as ms ↔ ms = as.filterMap Attribute.parsed
  | [], ms => ⟨fun h => by cases h; rfl, fun h => by subst h; exact .nil⟩
  | ⟨some m⟩ :: as, ms => by
    constructor
    · intro h
      cases h with
      | good h => simp [(parsed_iff as _).1 h]
    · intro h
      have : ms = m :: as.filterMap Attribute.parsed := by simpa using h
      subst this
      exact .good ((parsed_iff as _).2 rfl)
  | ⟨none⟩ :: as, ms => by
    constructor
    · intro h
      cases h with
      | bad h => simp [(parsed_iff as _).1 h]
    · intro h
      have : ms = as.filterMap Attribute.parsed := by simpa using h
      subst this
      exact .bad ((parsed_iff as _).2 rfl)

theorem items_iff : ∀ (ns : List NestedMeta) (ms : List Meta), Items ns ms ↔ ms = ns.filterMap NestedMeta.toMeta
  | [], ms => ⟨fun h => by cases h; rfl, fun h => by subst h; exact .nil⟩
  | .item m :: ns, ms => by
    constructor
    · intro h
      cases h with
      | item h => simp [(items_iff ns _).1 h, NestedMeta.toMeta]
    · intro h
      have : ms = m :: ns.filterMap NestedMeta.toMeta := by simpa [NestedMeta.toMeta] using h
      subst this
      exact .item ((items_iff ns _).2 rfl)
  | .lit l :: ns, ms => by
    constructor
    · intro h
      cases h with
      | lit h => exact (items_iff ns _).1 h
    · intro h
      have : ms = ns.filterMap NestedMeta.toMeta := h
      subst this
      exact .lit ((items_iff ns _).2 rfl)

theorem getOptions_ok (attrs : List Attribute) (name : Str) (nested : List NestedMeta) :
    getOptions attrs name = .ok nested ↔
      ∃ ms, Parsed attrs ms ∧ FirstNamed name ms (.list ⟨false, [name]⟩ nested) := by
  unfold getOptions
  constructor
  · intro h
    split at h
    · next p n hf =>
      cases h
      have hn := (find_iff name _ _).1 hf
      refine ⟨_, (parsed_iff attrs _).2 rfl, ?_⟩
      have hp : p = ⟨false, [name]⟩ := by
        obtain ⟨_, _, _, h, _⟩ := hn
        cases h
        rfl
      exact hp ▸ hn
    · cases h
  · rintro ⟨ms, h1, h2⟩
    rw [(parsed_iff attrs ms).1 h1] at h2
    rw [(find_iff name _ _).2 h2]

theorem getOption_ok (options : List NestedMeta) (name value : Str) :
    getOption options name = .ok value ↔
      ∃ items, Items options items ∧ FirstNamed name items (.nameValue ⟨false, [name]⟩ (.str value)) := by
  unfold getOption
  constructor
  · intro h
    split at h
    · cases h
    · next m hf =>
      have hn := (find_iff name _ _).1 hf
      refine ⟨_, (items_iff options _).2 rfl, ?_⟩
      have hm : m = .nameValue ⟨false, [name]⟩ (.str value) := by
        obtain ⟨_, _, _, hm, _⟩ := hn
        cases hm with
        | path => cases h
        | list n => cases h
        | nameValue v =>
          cases v with
          | other => cases h
          | str s => cases h; rfl
      exact hm ▸ hn
  · rintro ⟨ms, h1, h2⟩
    rw [(items_iff options ms).1 h1] at h2
    rw [(find_iff name _ _).2 h2]
    rfl

theorem asksFor_iff (attrs : List Attribute) (rel : Str) :
    (getOptions attrs (lit "ethabi_contract_options") >>= fun o => getOption o (lit "path")) = .ok rel ↔ AsksFor attrs rel := by
  unfold AsksFor
  constructor
  · intro h
    cases ho : getOptions attrs (lit "ethabi_contract_options") with
    | err e => rw [ho] at h; cases h
    | panic => rw [ho] at h; cases h
    | ok nested =>
      rw [ho, Res.ok_bind] at h
      obtain ⟨ms, h1, h2⟩ := (getOptions_ok _ _ _).1 ho
      obtain ⟨items, h3, h4⟩ := (getOption_ok _ _ _).1 h
      exact ⟨ms, nested, items, h1, h2, h3, h4⟩
  · rintro ⟨ms, nested, items, h1, h2, h3, h4⟩
    rw [(getOptions_ok _ _ nested).2 ⟨ms, h1, h2⟩, Res.ok_bind]
    exact (getOption_ok _ _ _).2 ⟨items, h3, h4⟩

theorem last_slash (dir : Str) : dir.getLast? = some '/' ↔ ∃ d, dir = d ++ ['/'] := by
  rw [List.getLast?_eq_some_iff]

theorem placedAt_iff (dir rel path : Str) : PlacedAt dir rel path ↔ path = pathPush dir rel := by
  unfold pathPush
  by_cases h : rel.head? = some '/'
  · rw [if_pos h]
    constructor
    · intro hl
      cases hl with
      | absolute r => rfl
      | inside d _ _ hr => exact absurd h hr
      | below _ _ _ hr => exact absurd h hr
      | empty _ _ hr => exact absurd h hr
    · intro hp
      cases rel with
      | nil => cases h
      | cons c r =>
        simp only [List.head?_cons, Option.some.injEq] at h
        subst h hp
        exact .absolute r
  · rw [if_neg h]
    by_cases he : dir = []
    · rw [if_pos (.inl he)]
      constructor
      · intro hl
        cases hl with
        | absolute r => exact absurd rfl h
        | inside d _ hd _ => rw [he] at hd; simp at hd
        | below _ hd _ _ => exact absurd he hd
        | empty _ _ _ => simp [he]
      · rintro rfl
        rw [he]
        exact .empty _ rfl h
    · by_cases hd : dir.getLast? = some '/'
      · rw [if_pos (.inr hd)]
        obtain ⟨d, hd'⟩ := (last_slash dir).1 hd
        constructor
        · intro hl
          cases hl with
          | absolute r => exact absurd rfl h
          | inside e _ he' _ => rw [he']; simp
          | below _ _ hn _ => exact absurd hd' (hn d)
          | empty _ hn _ => exact absurd hn he
        · rintro rfl
          rw [show dir ++ rel = d ++ '/' :: rel by rw [hd']; simp]
          exact .inside d rel hd' h
      · rw [if_neg (by simp [he, hd])]
        have hn : ∀ d, dir ≠ d ++ ['/'] := fun d hd' => hd ((last_slash dir).2 ⟨d, hd'⟩)
        constructor
        · intro hl
          cases hl with
          | absolute r => exact absurd rfl h
          | inside e _ he' _ => exact absurd he' (hn e)
          | below _ _ _ _ => simp [lit]
          | empty _ hn _ => exact absurd hn he
        · rintro rfl
          rw [show dir ++ lit "/" ++ rel = dir ++ '/' :: rel by simp [lit]]
          exact .below rel he hn h

theorem impl_eq (nm : Naming) (w : World) (attrs : List Attribute) :
    implEthabiDerive nm w attrs =
      ((getOptions attrs (lit "ethabi_contract_options") >>= fun o => getOption o (lit "path")) >>= fun rel =>
        normalizePath w rel >>= fun path => loadFile w path >>= fun c => generateContract nm c) := by
  unfold implEthabiDerive
  cases getOptions attrs (lit "ethabi_contract_options") <;> rfl

theorem bind_ok {α β : Type} {x : Res α} {f : α → Res β} {b : β} : (x >>= f) = .ok b ↔ ∃ a, x = .ok a ∧ f a = .ok b := by
  cases x <;> simp

theorem impl_ok (nm : Naming) (w : World) (attrs : List Attribute) (code : Code) :
    implEthabiDerive nm w attrs = .ok code ↔ ∃ rel dir path j c, AsksFor attrs rel ∧ w.manifestDir = some dir ∧
      PlacedAt dir rel path ∧ w.file path = some (some j) ∧ deContract j = .ok c ∧ generateContract nm c = .ok code := by
  rw [impl_eq, bind_ok]
  constructor
  · rintro ⟨rel, h1, h⟩
    obtain ⟨path, h2, h⟩ := bind_ok.1 h
    obtain ⟨c, h3, h4⟩ := bind_ok.1 h
    unfold normalizePath at h2
    split at h2
    · cases h2
    · next dir hd =>
      cases h2
      unfold loadFile at h3
      split at h3
      · cases h3
      · cases h3
      · next j hj => exact ⟨rel, dir, _, j, c, (asksFor_iff attrs rel).1 h1, hd, (placedAt_iff dir rel _).2 rfl, hj, h3, h4⟩
  · rintro ⟨rel, dir, path, j, c, h1, h2, h3, h4, h5, h6⟩
    refine ⟨rel, (asksFor_iff attrs rel).2 h1, bind_ok.2 ⟨path, ?_, bind_ok.2 ⟨c, ?_, h6⟩⟩⟩
    · simp only [normalizePath, h2, (placedAt_iff dir rel path).1 h3]
    · simp only [loadFile, h4, h5]

end Ethabi.DeriveEntry
