import Verif.Model.Reader
import Verif.Proofs.Slice
/-! Types returned by `Reader::read` have machine-sized sizes. -/
namespace Ethabi

theorem usizeOkAll_iff (ts : List ParamType) : ParamType.usizeOkAll ts = true ↔ ∀ t ∈ ts, t.usizeOk = true := by
  induction ts with
  | nil => simp [ParamType.usizeOkAll]
  | cons t ts ih => simp [ParamType.usizeOkAll, ih]

/-- recursive calls return machine-sized types -/
def RecFits (rec : Str → Res ParamType) : Prop := ∀ s t, rec s = .ok t → t.usizeOk = true

/-- everything collected in the state is machine-sized -/
def StFits (st : ReadSt) : Prop :=
  (∀ t ∈ st.subtypes, t.usizeOk = true) ∧ ∀ l ∈ st.subtuples, ∀ t ∈ l, t.usizeOk = true

theorem set_fits {S : List (List ParamType)} {i : Nat} {l : List ParamType}
    (h1 : ∀ l ∈ S, ∀ t ∈ l, t.usizeOk = true) (h2 : ∀ t ∈ l, t.usizeOk = true) :
    ∀ l' ∈ S.set i l, ∀ t ∈ l', t.usizeOk = true := by
  intro l' hl' t ht
  rcases List.mem_or_eq_of_mem_set hl' with h | rfl
  · exact h1 l' h t ht
  · exact h2 t ht

theorem indexVec_mem {α : Type} {v : List α} {i : Int} {a : α} (h : indexVec v i = .ok a) : a ∈ v := by
  unfold indexVec at h
  split at h
  · cases h
  · split at h
    · cases h; exact List.mem_of_getElem? (by assumption)
    · cases h

theorem append_fits {l : List ParamType} {t : ParamType} (h1 : ∀ t ∈ l, t.usizeOk = true) (h2 : t.usizeOk = true) :
    ∀ u ∈ l ++ [t], u.usizeOk = true := by
  intro u hu
  rcases List.mem_append.1 hu with h | h
  · exact h1 u h
  · rw [List.mem_singleton.1 h]; exact h2

theorem readOpen_fits {pos : Nat} {st : ReadSt} (h : StFits st) : StFits (readOpen pos st) := by
  unfold readOpen
  simp only []
  split
  · refine ⟨h.1, ?_⟩
    intro l hl
    rcases List.mem_append.1 hl with hl | hl
    · exact h.2 l hl
    · rw [List.mem_singleton.1 hl]; simp
  · exact h

theorem readClose_fits {rec : Str → Res ParamType} (hr : RecFits rec) {name rest : Str} {pos k : Nat} {st st' : ReadSt}
    (h : StFits st) (he : readClose rec name rest pos st = .ok (st', k)) : StFits st' := by
  unfold readClose at he
  simp only [] at he
  split at he
  · cases he
  · simp only [Res.bind_eq_ok] at he
    obtain ⟨item, -, he⟩ := he
    split at he
    · simp only [Res.ok.injEq, Prod.mk.injEq] at he
      obtain ⟨rfl, -⟩ := he
      exact h
    · split at he
      · simp only [Res.bind_eq_ok, Res.ok.injEq, Prod.mk.injEq] at he
        obtain ⟨t, ht, rfl, -⟩ := he
        exact ⟨append_fits h.1 (hr _ _ ht), h.2⟩
      · simp only [Res.bind_eq_ok] at he
        obtain ⟨inner, -, t, ht, he⟩ := he
        split at he
        · simp only [Res.bind_eq_ok, Res.ok.injEq, Prod.mk.injEq] at he
          obtain ⟨s, hs, rfl, -⟩ := he
          refine ⟨append_fits h.1 ?_, set_fits h.2 (by simp)⟩
          exact (usizeOkAll_iff _).2 (append_fits (h.2 _ (indexVec_mem hs)) (hr _ _ ht))
        · simp only [Res.ok.injEq, Prod.mk.injEq] at he
          obtain ⟨rfl, -⟩ := he
          exact ⟨append_fits h.1 (hr _ _ ht), h.2⟩

theorem readComma_fits {rec : Str → Res ParamType} (hr : RecFits rec) {name : Str} {pos : Nat} {st st' : ReadSt}
    (h : StFits st) (he : readComma rec name pos st = .ok st') : StFits st' := by
  unfold readComma at he
  simp only [Res.bind_eq_ok] at he
  obtain ⟨item, -, he⟩ := he
  split at he
  · simp only [Res.ok.injEq] at he; subst he; exact h
  · split at he
    · simp only [Res.bind_eq_ok, Res.ok.injEq] at he
      obtain ⟨t, ht, rfl⟩ := he
      exact ⟨append_fits h.1 (hr _ _ ht), h.2⟩
    · split at he
      · simp only [Res.bind_eq_ok, Res.ok.injEq] at he
        obtain ⟨t, ht, s, hs, rfl⟩ := he
        exact ⟨h.1, set_fits h.2 (append_fits (h.2 _ (indexVec_mem hs)) (hr _ _ ht))⟩
      · simp only [Res.ok.injEq] at he; subst he; exact h

theorem readLoop_fits {rec : Str → Res ParamType} (hr : RecFits rec) {name : Str} (cs : Str) :
    ∀ (pos skip : Nat) (st st' : ReadSt), StFits st → readLoop rec name cs pos skip st = .ok st' → StFits st' := by
  induction cs with
  | nil => intro pos skip st st' h he; simp only [readLoop, Res.ok.injEq] at he; exact he ▸ h
  | cons c cs ih =>
    intro pos skip st st' h he
    cases skip with
    | succ skip => simp only [readLoop] at he; exact ih _ _ _ _ h he
    | zero =>
      simp only [readLoop] at he
      split at he
      · exact ih _ _ _ _ (readOpen_fits h) he
      · split at he
        · simp only [Res.bind_eq_ok, Prod.exists] at he
          obtain ⟨st1, k, h1, he⟩ := he
          exact ih _ _ _ _ (readClose_fits hr h h1) he
        · split at he
          · simp only [Res.bind_eq_ok] at he
            obtain ⟨st1, h1, he⟩ := he
            exact ih _ _ _ _ (readComma_fits hr h h1) he
          · exact ih _ _ _ _ h he

theorem parseUsize_lt {s : Str} {n : Nat} (h : parseUsize s = .ok n) : n < 2 ^ 64 := by
  unfold parseUsize at h
  simp only [] at h
  split at h
  · rename_i hc; cases h; exact hc.2.2
  · cases h

theorem readElementary_fits {s : Str} {t : ParamType} (h : readElementary s = .ok t) : t.usizeOk = true := by
  unfold readElementary at h
  repeat' split at h
  all_goals first
    | (cases h; rfl)
    | (simp only [Res.bind_eq_ok, Res.ok.injEq] at h
       obtain ⟨n, hn, rfl⟩ := h
       have := parseUsize_lt hn
       simpa [ParamType.usizeOk] using this)
    | cases h

theorem readStep_fits {rec : Str → Res ParamType} (hr : RecFits rec) {name : Str} {t : ParamType}
    (h : readStep rec name = .ok t) : t.usizeOk = true := by
  unfold readStep at h
  split at h
  · split at h
    · cases h
    · simp only [Res.bind_eq_ok, Res.ok.injEq] at h
      obtain ⟨st, h1, rfl⟩ := h
      have := readLoop_fits hr name 0 0 _ st ⟨by simp, by simp⟩ h1
      exact (usizeOkAll_iff _).2 this.1
  · split at h
    · simp only [] at h
      split at h
      · simp only [Res.bind_eq_ok, Res.ok.injEq] at h
        obtain ⟨_, _, sub, _, u, hu, rfl⟩ := h
        simpa [ParamType.usizeOk] using hr _ _ hu
      · simp only [Res.bind_eq_ok, Res.ok.injEq] at h
        obtain ⟨k, hk, _, _, _, _, sub, _, u, hu, rfl⟩ := h
        have := parseUsize_lt hk
        simp only [ParamType.usizeOk, hr _ _ hu, Bool.and_true, decide_eq_true_eq]
        exact this
    · exact readElementary_fits h

theorem readFuel_fits (n : Nat) : RecFits (readFuel n) := by
  induction n with
  | zero => intro s t h; cases h
  | succ n ih => intro s t h; exact readStep_fits ih h

theorem read_fits {s : Str} {t : ParamType} (h : read s = .ok t) : t.usizeOk = true := readFuel_fits _ s t h

end Ethabi
