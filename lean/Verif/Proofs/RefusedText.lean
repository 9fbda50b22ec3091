import Verif.Spec.RefusedText
import Verif.Proofs.TypeText
import Verif.Proofs.Errors
/-! # Lemmas for C93: errors of `Reader::read` -/
namespace Ethabi.RefusedText
open Spec Errors

theorem parse_err {d : Str} {e : Err} : parseUsize d = .err e ↔ e = .parseInt ∧ notNumber d := by
  unfold notNumber
  simp only [numberText_iff]
  constructor
  · intro h
    refine ⟨?_, fun n hn => by rw [h] at hn; cases hn⟩
    unfold parseUsize at h
    simp only [] at h
    split at h
    · cases h
    · cases h; rfl
  · rintro ⟨rfl, h⟩
    cases hk : parseUsize d with
    | ok n => exact absurd hk (h n)
    | panic => exact absurd hk (parseUsize_noPanic d)
    | err e =>
      unfold parseUsize at hk
      simp only [] at hk
      split at hk
      · cases hk
      · exact congrArg Res.err (Res.err.inj hk).symm

theorem bind_ok_err {α β : Type} {x : Res α} {f : α → β} {e : Err} : (x >>= fun a => .ok (f a)) = .err e ↔ x = .err e := by
  cases x <;> simp

theorem startsWith_iff (p s : Str) : startsWith p s = true ↔ p <+: s := by
  unfold startsWith
  exact List.isPrefixOf_iff_prefix

theorem drop_prefix {p d : Str} {n : Nat} (h : p.length = n) : (p ++ d).drop n = d := by rw [← h]; simp

/-- the elementary names -/
theorem elementary_err {s : Str} {e : Err} : readElementary s = .err e ↔
    (∃ p d, s = p ++ d ∧ p ∈ numbered ∧ d ≠ [] ∧ e = .parseInt ∧ notNumber d) ∨
    (e = .invalidName s ∧ s ∉ named ∧ ∀ p ∈ numbered, ¬ p <+: s) := by
  by_cases h1 : s ∈ named
  · have : readElementary s ≠ .err e := by
      simp only [named, List.mem_cons, List.not_mem_nil, or_false] at h1
      rcases h1 with rfl | rfl | rfl | rfl <;> (intro h; cases h)
    simp only [this, h1, not_true, false_and, and_false, or_false, false_iff]
    rintro ⟨p, d, rfl, hp, -, -, -⟩
    simp only [numbered, named, List.mem_cons, List.not_mem_nil, or_false] at hp h1
    rcases hp with rfl | rfl | rfl <;> rcases h1 with h1 | h1 | h1 | h1 <;> simp at h1
  by_cases h2 : s ∈ numbered
  · have : readElementary s ≠ .err e := by
      simp only [numbered, List.mem_cons, List.not_mem_nil, or_false] at h2
      rcases h2 with rfl | rfl | rfl <;> (intro h; cases h)
    simp only [this, false_iff, not_or]
    refine ⟨?_, ?_⟩
    · rintro ⟨p, d, rfl, hp, hd, -, -⟩
      simp only [numbered, List.mem_cons, List.not_mem_nil, or_false] at hp h2
      rcases hp with rfl | rfl | rfl <;> rcases h2 with h2 | h2 | h2 <;> simp at h2 <;> exact hd h2
    · rintro ⟨-, -, h⟩
      exact h s h2 List.prefix_rfl
  simp only [named, numbered, List.mem_cons, List.not_mem_nil, or_false, not_or] at h1 h2
  unfold readElementary
  rw [if_neg h1.1, if_neg h2.2.2, if_neg h1.2.1, if_neg h1.2.2.1, if_neg h2.1, if_neg h1.2.2.2, if_neg h2.2.1]
  have hpre : ∀ p q : Str, p ∈ numbered → q ∈ numbered → p <+: s → q <+: s → p = q := by
    rintro p q hp hq ⟨a, rfl⟩ ⟨b, hb⟩
    simp only [numbered, List.mem_cons, List.not_mem_nil, or_false] at hp hq
    rcases hp with rfl | rfl | rfl <;> rcases hq with rfl | rfl | rfl <;> first | rfl | (simp at hb)
  have key : ∀ (p : Str) (n : Nat) (f : Nat → ParamType), p ∈ numbered → p.length = n → p <+: s →
      ((parseUsize (s.drop n) >>= fun len => .ok (f len)) = .err e ↔
        (∃ p d, s = p ++ d ∧ p ∈ numbered ∧ d ≠ [] ∧ e = .parseInt ∧ notNumber d) ∨
        (e = .invalidName s ∧ s ∉ named ∧ ∀ p ∈ numbered, ¬ p <+: s)) := by
    intro p n f hp hl hps
    rw [bind_ok_err, parse_err]
    have hno : ¬ ∀ p ∈ numbered, ¬ p <+: s := fun h => h p hp hps
    simp only [hno, and_false, or_false]
    obtain ⟨d, rfl⟩ := hps
    rw [drop_prefix hl]
    constructor
    · rintro ⟨he, hd⟩
      refine ⟨p, d, rfl, hp, ?_, he, hd⟩
      rintro rfl
      simp only [numbered, List.mem_cons, List.not_mem_nil, or_false] at hp
      simp only [List.append_nil] at h2
      rcases hp with rfl | rfl | rfl
      · exact h2.1 rfl
      · exact h2.2.1 rfl
      · exact h2.2.2 rfl
    · rintro ⟨q, d', he, hq, -, h3, h4⟩
      have := hpre p q hp hq ⟨d, rfl⟩ ⟨d', he.symm⟩
      subst this
      rw [List.append_cancel_left he]
      exact ⟨h3, h4⟩
  split
  · rename_i h
    exact key (lit "int") 3 .int (by simp [numbered, lit]) rfl ((startsWith_iff _ _).1 h)
  rename_i i1
  split
  · rename_i h
    exact key (lit "uint") 4 .uint (by simp [numbered, lit]) rfl ((startsWith_iff _ _).1 h)
  rename_i i2
  split
  · rename_i h
    exact key (lit "bytes") 5 .fixedBytes (by simp [numbered, lit]) rfl ((startsWith_iff _ _).1 h)
  rename_i i3
  rw [startsWith_iff] at i1 i2 i3
  have hno : ∀ p ∈ numbered, ¬ p <+: s := by
    intro p hp
    simp only [numbered, List.mem_cons, List.not_mem_nil, or_false] at hp
    rcases hp with rfl | rfl | rfl
    · exact i1
    · exact i2
    · exact i3
  have hna : s ∉ named := by
    simp only [named, List.mem_cons, List.not_mem_nil, or_false, not_or]; exact h1
  constructor
  · intro h; cases h; exact Or.inr ⟨rfl, hna, hno⟩
  · rintro (⟨p, d, rfl, hp, -⟩ | ⟨rfl, -⟩)
    · exact absurd ⟨d, rfl⟩ (hno p hp)
    · rfl

theorem suffix_eq (s d : Str) : s ++ "[".toList ++ d ++ "]".toList = s ++ '[' :: (d ++ [']']) := by simp

theorem refused_read {s : Str} {e : Err} (h : Refused s e) : ascii s → read s = .err e := by
  induction h with
  | @size s d h1 h2 h3 =>
    intro ha
    rw [suffix_eq] at ha ⊢
    rw [read_fixedArray (fun x hx => ha x (by simp [hx])) (fun x hx => ha x (by simp [hx])) h2 h1,
      parse_err.2 ⟨rfl, h3⟩]
    rfl
  | @unopened d h1 h2 h3 =>
    intro ha
    rw [show "]".toList = [']'] by rfl] at ha ⊢
    rw [read_unopened h1 (fun x hx => ha x (by simp [hx])), if_neg h2, parse_err.2 ⟨rfl, h3⟩]
    rfl
  | @array s e _ ih =>
    intro ha
    have ha' : ascii s := fun x hx => ha x (by simp [hx])
    rw [show "[]".toList = lit "[]" by rfl, read_array ha', ih ha']
    rfl
  | @fixedArray s d n e _ h ih =>
    intro ha
    rw [suffix_eq] at ha ⊢
    have ha' : ascii s := fun x hx => ha x (by simp [hx])
    have hk := (numberText_iff d n).1 h
    have hne : d ≠ [] := by
      rintro rfl
      cases hk
    rw [read_fixedArray ha' (fun x hx => ha x (by simp [hx])) hne (fun hb => by
      obtain ⟨ds, rfl | rfl, -, hd, -⟩ := h
      · exact absurd (hd _ hb) (by decide)
      · rcases List.mem_cons.1 hb with hb | hb
        · cases hb
        · exact absurd (hd _ hb) (by decide)), hk, Res.ok_bind, ih ha']
    rfl
  | @width p d h1 h2 h3 h4 =>
    intro _
    rw [read_plain h3.2 h3.1]
    exact elementary_err.2 (Or.inl ⟨p, d, rfl, h1, h2, rfl, h4⟩)
  | @name s h1 h2 h3 =>
    intro _
    rw [read_plain h1.2 h1.1]
    exact elementary_err.2 (Or.inr ⟨rfl, h2, h3⟩)

theorem read_refused : ∀ (n : Nat) (s : Str) (e : Err), s.length = n → ascii s → ')' ∉ s → read s = .err e → Refused s e := by
  intro n
  induction n using Nat.strongRecOn with
  | _ n ih =>
  intro s e hn ha hp h
  by_cases hl : s.getLast? = some ']'
  · obtain ⟨p, rfl⟩ : ∃ p, s = p ++ [']'] := List.getLast?_eq_some_iff.1 hl
    by_cases hb : '[' ∈ p
    · obtain ⟨q, num, rfl, hnum⟩ := last_bracket p hb
      have e1 : q ++ '[' :: num ++ [']'] = q ++ '[' :: (num ++ [']']) := by simp
      rw [e1] at ha h hp hn ⊢
      have haq : ascii q := fun x hx => ha x (by simp [hx])
      have hpq : ')' ∉ q := fun h => hp (by simp [h])
      by_cases hne : num = []
      · subst hne
        have e2 : q ++ '[' :: ([] ++ [']']) = q ++ lit "[]" := rfl
        rw [e2] at h ⊢
        rw [read_array haq, bind_ok_err] at h
        exact .array (ih q.length (by rw [← hn]; simp) q e rfl haq hpq h)
      · rw [read_fixedArray haq (fun x hx => ha x (by simp [hx])) hne hnum, bind_eq_err] at h
        rw [← suffix_eq]
        rcases h with h | ⟨k, hk, h⟩
        · obtain ⟨rfl, h'⟩ := parse_err.1 h
          exact .size hnum hne h'
        · rw [bind_ok_err] at h
          exact .fixedArray (ih q.length (by rw [← hn]; simp) q e rfl haq hpq h) ((numberText_iff _ _).2 hk)
    · rw [read_unopened hb (fun x hx => ha x (by simp [hx]))] at h
      split at h
      · cases h
      · rename_i hne
        rw [bind_eq_err] at h
        rcases h with h | ⟨_, _, h⟩
        · obtain ⟨rfl, h'⟩ := parse_err.1 h
          exact .unopened hb hne h'
        · cases h
  · have hl' : s.getLast? ≠ some ')' := fun h => hp (List.mem_of_getLast? h)
    rw [read_plain hl' hl] at h
    rcases elementary_err.1 h with ⟨p, d, rfl, h1, h2, rfl, h3⟩ | ⟨rfl, h1, h2⟩
    · exact .width h1 h2 ⟨hl, hl'⟩ h3
    · exact .name ⟨hl, hl'⟩ h1 h2

/-! ### the name in the error is a part of the text -/

/-- the errors of reading a part of `s` -/
def Within {α : Type} (s : Str) (x : Res α) : Prop := ∀ n, x = .err (.invalidName n) → n <:+: s

theorem within_ok {α : Type} {s : Str} (a : α) : Within s (Res.ok a) := fun _ h => nomatch h

theorem within_panic {α : Type} {s : Str} : Within s (Res.panic : Res α) := fun _ h => nomatch h

theorem within_bind {α β : Type} {s : Str} {x : Res α} {f : α → Res β} (h : Within s x)
    (hf : ∀ a, x = .ok a → Within s (f a)) : Within s (x >>= f) := by
  intro n hn
  rcases bind_eq_err.1 hn with h' | ⟨a, ha, h'⟩
  · exact h n h'
  · exact hf a ha n h'

theorem within_ite {α : Type} {s : Str} {c : Prop} [Decidable c] {x y : Res α} (hx : Within s x) (hy : Within s y) :
    Within s (if c then x else y) := by
  split
  · exact hx
  · exact hy

theorem within_slice (s name : Str) (a b : Nat) : Within s (strSlice name a b) := by
  intro n h
  exact absurd h strSlice_not_err

theorem within_index {α : Type} {s : Str} (v : List α) (i : Int) : Within s (indexVec v i) := by
  unfold indexVec
  repeat' split
  all_goals first | exact within_panic | exact within_ok _

theorem within_parse {s : Str} (d : Str) : Within s (parseUsize d) := by
  intro n h
  obtain ⟨h, -⟩ := parse_err.1 h
  cases h

theorem within_sub {s : Str} (a b : Nat) : Within s (indexSub a b) := by
  unfold indexSub
  split
  all_goals first | exact within_panic | exact within_ok _

theorem within_part {rec : Str → Res ParamType} (hr : ∀ s, Within s (rec s)) {name item : Str} {a b : Nat}
    (h : strSlice name a b = .ok item) : Within name (rec item) := by
  obtain ⟨x, y, rfl, -, -⟩ := TokenText.strSlice_iff.1 h
  intro n hn
  exact (hr item n hn).trans ⟨x, y, rfl⟩

theorem within_close {rec : Str → Res ParamType} (hr : ∀ s, Within s (rec s)) (name rest : Str) (pos : Nat)
    (st : ReadSt) : Within name (readClose rec name rest pos st) := by
  unfold readClose
  simp only []
  refine within_ite (fun n h => by cases h; exact List.infix_rfl) (within_bind (within_slice _ _ _ _) fun item hi => ?_)
  refine within_ite (within_ok _) (within_ite ?_ ?_)
  · exact within_bind (within_part hr hi) fun _ _ => within_ok _
  · refine within_bind (within_slice _ _ _ _) fun _ hs => within_bind (within_part hr hs) fun _ _ =>
      within_ite ?_ (within_ok _)
    exact within_bind (within_index _ _) fun _ _ => within_ok _

theorem within_comma {rec : Str → Res ParamType} (hr : ∀ s, Within s (rec s)) (name : Str) (pos : Nat)
    (st : ReadSt) : Within name (readComma rec name pos st) := by
  unfold readComma
  refine within_bind (within_slice _ _ _ _) fun item hi => ?_
  refine within_ite (within_ok _) (within_ite ?_ (within_ite ?_ (within_ok _)))
  · exact within_bind (within_part hr hi) fun _ _ => within_ok _
  · exact within_bind (within_part hr hi) fun _ _ => within_bind (within_index _ _) fun _ _ => within_ok _

theorem within_loop {rec : Str → Res ParamType} (hr : ∀ s, Within s (rec s)) (name : Str) :
    ∀ (cs : Str) (pos skip : Nat) (st : ReadSt), Within name (readLoop rec name cs pos skip st)
  | [], _, _, _ => by unfold readLoop; exact within_ok _
  | _ :: cs, pos, skip + 1, st => by unfold readLoop; exact within_loop hr name cs _ _ _
  | c :: cs, pos, 0, st => by
    unfold readLoop
    refine within_ite (within_loop hr name cs _ _ _) (within_ite ?_ (within_ite ?_ (within_loop hr name cs _ _ _)))
    · exact within_bind (within_close hr _ _ _ _) fun r _ => within_loop hr name cs _ _ _
    · exact within_bind (within_comma hr _ _ _) fun r _ => within_loop hr name cs _ _ _

theorem within_elementary (s : Str) : Within s (readElementary s) := by
  intro n h
  rcases elementary_err.1 h with ⟨p, d, -, -, -, h, -⟩ | ⟨h, -⟩
  · cases h
  · cases h; exact List.infix_rfl

theorem within_step {rec : Str → Res ParamType} (hr : ∀ s, Within s (rec s)) (name : Str) :
    Within name (readStep rec name) := by
  unfold readStep
  refine within_ite (within_ite (fun n h => by cases h; exact List.infix_rfl) ?_) (within_ite ?_ (within_elementary _))
  · exact within_bind (within_loop hr _ _ _ _ _) fun _ _ => within_ok _
  · simp only []
    refine within_ite ?_ ?_
    · exact within_bind (within_sub _ _) fun _ _ => within_bind (within_slice _ _ _ _) fun _ hs =>
        within_bind (within_part hr hs) fun _ _ => within_ok _
    · exact within_bind (within_parse _) fun _ _ => within_bind (within_sub _ _) fun _ _ =>
        within_bind (within_sub _ _) fun _ _ => within_bind (within_slice _ _ _ _) fun _ hs =>
        within_bind (within_part hr hs) fun _ _ => within_ok _

theorem within_read (s : Str) : Within s (read s) := by
  unfold read
  generalize byteLen s + 1 = n
  induction n generalizing s with
  | zero => exact within_panic
  | succ n ih => exact within_step ih s

end Ethabi.RefusedText
