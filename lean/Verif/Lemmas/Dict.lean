/- Helper lemmas on dictionaries, `unique` and masks. -/
import Verif.Py.Basic

namespace DynCF
namespace Dict
variable {α β : Type} [DecidableEq α]

@[simp] theorem get?_nil (k : α) : get? ([] : Dict α β) k = none := rfl

theorem get?_cons (k' : α) (v : β) (d : Dict α β) (k : α) :
    get? ((k', v) :: d) k = if k' = k then some v else get? d k := rfl

theorem get?_set (d : Dict α β) (k k' : α) (v : β) :
    get? (set d k v) k' = if k = k' then some v else get? d k' := by
  induction d with
  | nil => simp [set, get?]
  | cons p d ih =>
    obtain ⟨a, b⟩ := p
    simp only [set]
    by_cases h : a = k
    · subst h
      simp only [if_true, get?_cons]
      by_cases h2 : a = k' <;> simp [h2]
    · simp only [if_neg h, get?_cons, ih]
      by_cases h2 : a = k'
      · subst h2
        have : k ≠ a := fun e => h e.symm
        simp [this]
      · simp [h2]

theorem get?_set_self (d : Dict α β) (k : α) (v : β) : get? (set d k v) k = some v := by
  simp [get?_set]

theorem get?_set_ne (d : Dict α β) {k k' : α} (v : β) (h : k ≠ k') :
    get? (set d k v) k' = get? d k' := by simp [get?_set, h]

theorem update_nil (d : Dict α β) : update d [] = d := rfl

theorem update_cons (d : Dict α β) (p : α × β) (e : Dict α β) :
    update d (p :: e) = update (set d p.1 p.2) e := rfl

theorem update_append (d e f : Dict α β) : update d (e ++ f) = update (update d e) f := by
  simp [update, List.foldl_append]

theorem mem_keys_iff (d : Dict α β) (k : α) : k ∈ keys d ↔ (get? d k).isSome := by
  induction d with
  | nil => simp [keys]
  | cons p d ih =>
    obtain ⟨a, b⟩ := p
    simp only [keys, List.map_cons, List.mem_cons, get?_cons]
    by_cases h : a = k
    · simp [h]
    · have : k ≠ a := fun e => h e.symm
      simp only [keys] at ih
      simp [h, this, ih]

theorem get?_eq_none_iff (d : Dict α β) (k : α) : get? d k = none ↔ k ∉ keys d := by
  rw [mem_keys_iff]; cases get? d k <;> simp

theorem contains_iff (d : Dict α β) (k : α) : contains d k = true ↔ k ∈ keys d := by
  rw [mem_keys_iff]; rfl

theorem keys_set_mem (d : Dict α β) (k : α) (v : β) (h : k ∈ keys d) :
    keys (set d k v) = keys d := by
  induction d with
  | nil => simp [keys] at h
  | cons p d ih =>
    obtain ⟨a, b⟩ := p
    simp only [set]
    by_cases h2 : a = k
    · simp [h2, keys]
    · have h3 : k ∈ keys d := by
        simp only [keys, List.map_cons, List.mem_cons] at h
        rcases h with h | h
        · exact absurd h.symm h2
        · exact h
      have := ih h3
      simp only [if_neg h2]
      simp only [keys, List.map_cons] at this ⊢
      rw [this]

theorem keys_set_not_mem (d : Dict α β) (k : α) (v : β) (h : k ∉ keys d) :
    keys (set d k v) = keys d ++ [k] := by
  induction d with
  | nil => simp [keys, set]
  | cons p d ih =>
    obtain ⟨a, b⟩ := p
    simp only [keys, List.map_cons, List.mem_cons, not_or] at h
    have h2 : ¬ a = k := fun e => h.1 e.symm
    have := ih h.2
    simp only [set, if_neg h2]
    simp only [keys, List.map_cons] at this ⊢
    rw [this]; rfl

theorem set_not_mem (d : Dict α β) (k : α) (v : β) (h : k ∉ keys d) :
    set d k v = d ++ [(k, v)] := by
  induction d with
  | nil => simp [set]
  | cons p d ih =>
    obtain ⟨a, b⟩ := p
    simp only [keys, List.map_cons, List.mem_cons, not_or] at h
    have h2 : ¬ a = k := fun e => h.1 e.symm
    simp [set, h2, ih h.2]

theorem keys_set_nodup (d : Dict α β) (k : α) (v : β) (h : (keys d).Nodup) :
    (keys (set d k v)).Nodup := by
  by_cases hk : k ∈ keys d
  · rw [keys_set_mem d k v hk]; exact h
  · rw [keys_set_not_mem d k v hk]
    exact List.Nodup.append h (List.nodup_singleton k) (by
      intro x hx hx2; simp at hx2; subst hx2; exact hk hx)

theorem mem_keys_set (d : Dict α β) (k k' : α) (v : β) :
    k' ∈ keys (set d k v) ↔ k' ∈ keys d ∨ k' = k := by
  rw [mem_keys_iff, get?_set, mem_keys_iff]
  by_cases h : k = k'
  · simp [h]
  · have : ¬ k' = k := fun e => h e.symm
    simp [h, this]

theorem get?_of_mem (d : Dict α β) (hd : (keys d).Nodup) {k : α} {v : β} (h : (k, v) ∈ d) :
    get? d k = some v := by
  induction d with
  | nil => simp at h
  | cons p d ih =>
    obtain ⟨a, b⟩ := p
    simp only [keys, List.map_cons, List.nodup_cons] at hd
    rcases List.mem_cons.1 h with h | h
    · cases h; simp [get?_cons]
    · have : a ≠ k := by
        rintro rfl; exact hd.1 (List.mem_map_of_mem (f := Prod.fst) h)
      simp [get?_cons, this, ih hd.2 h]

theorem mem_of_get? (d : Dict α β) {k : α} {v : β} (h : get? d k = some v) : (k, v) ∈ d := by
  induction d with
  | nil => simp at h
  | cons p d ih =>
    obtain ⟨a, b⟩ := p
    rw [get?_cons] at h
    split at h
    · rename_i e; subst e; simp at h; simp [h]
    · exact List.mem_cons_of_mem _ (ih h)

/-- Updating with fresh distinct keys simply appends. -/
theorem update_fresh (d e : Dict α β) (hd : (keys e).Nodup) (hdis : ∀ k ∈ keys e, k ∉ keys d) :
    update d e = d ++ e := by
  induction e generalizing d with
  | nil => simp [update_nil]
  | cons p e ih =>
    obtain ⟨a, b⟩ := p
    simp only [keys, List.map_cons, List.nodup_cons] at hd
    rw [update_cons]
    have ha : a ∉ keys d := hdis a (by simp [keys])
    rw [set_not_mem d a b ha, ih _ hd.2]
    · simp
    · intro k hk hk2
      simp only [keys, List.map_append, List.mem_append, List.map_cons, List.map_nil,
        List.mem_singleton] at hk2
      rcases hk2 with hk2 | hk2
      · exact hdis k (by simp only [keys, List.map_cons]; exact List.mem_cons_of_mem _ hk) hk2
      · subst hk2; exact hd.1 hk

theorem get?_append (d e : Dict α β) (k : α) :
    get? (d ++ e) k = (get? d k).or (get? e k) := by
  induction d with
  | nil => simp
  | cons p d ih =>
    obtain ⟨a, b⟩ := p
    simp only [List.cons_append, get?_cons]
    split <;> simp [ih]

end Dict

section unique
variable {α : Type} [DecidableEq α]

theorem mem_pdUnique (l : List α) (x : α) : x ∈ pdUnique l ↔ x ∈ l := by
  induction l with
  | nil => simp [pdUnique]
  | cons a l ih =>
    simp only [pdUnique, List.mem_cons, List.mem_filter, ih, decide_eq_true_eq, ne_eq]
    by_cases h : x = a <;> simp [h]

theorem nodup_pdUnique (l : List α) : (pdUnique l).Nodup := by
  induction l with
  | nil => simp [pdUnique]
  | cons a l ih =>
    simp only [pdUnique, List.nodup_cons, List.mem_filter, decide_eq_true_eq]
    exact ⟨fun h => h.2 rfl, ih.filter _⟩

theorem pdUnique_of_nodup (l : List α) (h : l.Nodup) : pdUnique l = l := by
  induction l with
  | nil => rfl
  | cons a l ih =>
    simp only [List.nodup_cons] at h
    simp only [pdUnique, ih h.2]
    congr 1
    rw [List.filter_eq_self]
    intro x hx
    simp only [decide_eq_true_eq]
    rintro rfl; exact h.1 hx

end unique

theorem maskSelect_map {α : Type} (l : List α) (p : α → Bool) :
    maskSelect l (l.map p) = l.filter p := by
  induction l with
  | nil => rfl
  | cons a l ih => simp only [List.map_cons, maskSelect, ih, List.filter_cons]

end DynCF
