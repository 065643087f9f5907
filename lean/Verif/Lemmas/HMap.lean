import Verif.Model.Std
import Mathlib.Data.List.Nodup
import Mathlib.Data.List.Perm.Basic
/-! Facts about the model of `HashMap`. -/
namespace NdHist
namespace HMap
variable {K V : Type} [DecidableEq K]

@[simp] theorem get_empty (k : K) : (empty : HMap K V).get k = none := rfl
@[simp] theorem len_empty : (empty : HMap K V).len = 0 := rfl
theorem nodup_empty : (empty : HMap K V).NodupKeys := List.nodup_nil

theorem find_put (k k' : K) (v : V) (l : List (K × V)) :
    find k' (put k v l) = if k = k' then some v else find k' l := by
  induction l with
  | nil => simp [put, find]
  | cons kv l ih =>
    obtain ⟨k0, v0⟩ := kv
    unfold put
    by_cases h0 : k0 = k
    · simp only [h0, if_true, find]
      by_cases h : k = k' <;> simp [h]
    · simp only [h0, if_false, find]
      by_cases h1 : k0 = k'
      · subst h1
        simp [Ne.symm h0]
      · simp only [h1, if_false, ih]

theorem get_insert (m : HMap K V) (k k' : K) (v : V) :
    (m.insert k v).get k' = if k = k' then some v else m.get k' := find_put k k' v m.entries

theorem get_insert_self (m : HMap K V) (k : K) (v : V) : (m.insert k v).get k = some v := by
  simp [get_insert]

theorem get_insert_ne (m : HMap K V) {k k' : K} (v : V) (h : k ≠ k') : (m.insert k v).get k' = m.get k' := by
  simp [get_insert, h]

theorem keys_put (k : K) (v : V) (l : List (K × V)) :
    (put k v l).map (·.1) = if k ∈ l.map (·.1) then l.map (·.1) else l.map (·.1) ++ [k] := by
  induction l with
  | nil => simp [put]
  | cons kv l ih =>
    obtain ⟨k0, v0⟩ := kv
    unfold put
    by_cases h0 : k0 = k
    · simp [h0]
    · simp only [h0, if_false, List.map_cons, ih, List.mem_cons, Ne.symm h0, false_or]
      by_cases h : k ∈ l.map (·.1)
      · simp only [h, if_true]
      · simp only [h, if_false, List.cons_append]

theorem keys_insert (m : HMap K V) (k : K) (v : V) :
    (m.insert k v).keys = if k ∈ m.keys then m.keys else m.keys ++ [k] := keys_put k v m.entries

theorem mem_keys_insert (m : HMap K V) (k k' : K) (v : V) : k' ∈ (m.insert k v).keys ↔ k' = k ∨ k' ∈ m.keys := by
  rw [keys_insert]
  by_cases h : k ∈ m.keys
  · simp only [h, if_true]
    exact ⟨Or.inr, fun h' => h'.elim (fun h'' => h'' ▸ h) id⟩
  · simp only [h, if_false, List.mem_append, List.mem_singleton]
    exact or_comm

theorem nodup_insert {m : HMap K V} (h : m.NodupKeys) (k : K) (v : V) : (m.insert k v).NodupKeys := by
  unfold NodupKeys at *
  rw [keys_insert]
  by_cases hk : k ∈ m.keys
  · simpa only [hk, if_true]
  · simp only [hk, if_false]
    rw [List.nodup_append]
    refine ⟨h, by simp, ?_⟩
    intro a ha b hb
    simp at hb
    subst hb
    exact fun he => hk (he ▸ ha)

theorem len_eq_keys (m : HMap K V) : m.len = m.keys.length := by simp [len, keys]

theorem len_insert (m : HMap K V) (k : K) (v : V) :
    (m.insert k v).len = if k ∈ m.keys then m.len else m.len + 1 := by
  rw [len_eq_keys, keys_insert, len_eq_keys]
  by_cases hk : k ∈ m.keys <;> simp [hk]

theorem find_isSome (k : K) (l : List (K × V)) : (∃ v, find k l = some v) ↔ k ∈ l.map (·.1) := by
  induction l with
  | nil => simp [find]
  | cons kv l ih =>
    obtain ⟨k0, v0⟩ := kv
    unfold find
    by_cases h : k0 = k
    · simp [h]
    · simp only [h, if_false, ih, List.map_cons, List.mem_cons, Ne.symm h, false_or]

theorem get_isSome (m : HMap K V) (k : K) : (∃ v, m.get k = some v) ↔ k ∈ m.keys := find_isSome k m.entries

theorem get_eq_none (m : HMap K V) (k : K) : m.get k = none ↔ k ∉ m.keys := by
  rw [← get_isSome]
  cases h : m.get k <;> simp

theorem find_mem {k : K} {v : V} {l : List (K × V)} (h : find k l = some v) : (k, v) ∈ l := by
  induction l with
  | nil => simp [find] at h
  | cons kv l ih =>
    obtain ⟨k0, v0⟩ := kv
    unfold find at h
    by_cases h0 : k0 = k
    · simp only [h0, if_true, Option.some.injEq] at h
      simp [h0, h]
    · simp only [h0, if_false] at h
      simp [ih h]

theorem find_of_mem {k : K} {v : V} {l : List (K × V)} (hn : (l.map (·.1)).Nodup) (h : (k, v) ∈ l) :
    find k l = some v := by
  induction l with
  | nil => simp at h
  | cons kv l ih =>
    obtain ⟨k0, v0⟩ := kv
    simp only [List.map_cons, List.nodup_cons] at hn
    unfold find
    simp only [List.mem_cons, Prod.mk.injEq] at h
    rcases h with ⟨rfl, rfl⟩ | h
    · simp
    · have : k0 ≠ k := fun he => hn.1 (he ▸ List.mem_map.mpr ⟨_, h, rfl⟩)
      simp only [this, if_false, ih hn.2 h]

theorem mem_entries_iff {m : HMap K V} (hn : m.NodupKeys) (k : K) (v : V) :
    (k, v) ∈ m.entries ↔ m.get k = some v := ⟨find_of_mem hn, find_mem⟩

/-- two maps with the same lookups are permutations of each other -/
theorem perm_of_get_eq {m m' : HMap K V} (hn : m.NodupKeys) (hn' : m'.NodupKeys)
    (h : ∀ k, m.get k = m'.get k) : m.entries.Perm m'.entries := by
  rw [List.perm_ext_iff_of_nodup]
  · rintro ⟨k, v⟩
    rw [mem_entries_iff hn, mem_entries_iff hn', h]
  · exact List.Nodup.of_map _ hn
  · exact List.Nodup.of_map _ hn'

theorem find_perm {l l' : List (K × V)} (hp : l.Perm l') (hn : (l.map (·.1)).Nodup) (k : K) :
    find k l = find k l' := by
  have hn' : (l'.map (·.1)).Nodup := (hp.map _).nodup_iff.mp hn
  cases h : find k l with
  | some v => exact (find_of_mem hn' (hp.subset (find_mem h))).symm
  | none =>
    cases h' : find k l' with
    | none => rfl
    | some v =>
      have := find_of_mem hn (hp.symm.subset (find_mem h'))
      rw [h] at this; simp at this

theorem nodup_foldl_insert (l : List (K × V)) :
    ∀ m : HMap K V, m.NodupKeys → (l.foldl (fun m kv => m.insert kv.1 kv.2) m).NodupKeys := by
  induction l with
  | nil => intro m h; exact h
  | cons kv l ih => intro m h; exact ih _ (nodup_insert h _ _)

theorem nodup_collect (l : List (K × V)) : (collect l).NodupKeys := nodup_foldl_insert l _ nodup_empty

theorem get_foldl_insert (l : List (K × V)) (hn : (l.map (·.1)).Nodup) (k : K) :
    ∀ m : HMap K V, (l.foldl (fun m kv => m.insert kv.1 kv.2) m).get k = (find k l).or (m.get k) := by
  induction l with
  | nil => intro m; simp [find]
  | cons kv l ih =>
    obtain ⟨k0, v0⟩ := kv
    intro m
    simp only [List.map_cons, List.nodup_cons] at hn
    simp only [List.foldl_cons, ih hn.2, get_insert, find]
    by_cases h : k0 = k
    · subst h
      have : find k0 l = none := by
        cases hf : find k0 l with
        | none => rfl
        | some v => exact (hn.1 (List.mem_map.mpr ⟨_, find_mem hf, rfl⟩)).elim
      simp [this]
    · simp [h]

/-- collecting key-unique pairs gives a map with exactly these entries -/
theorem get_collect (l : List (K × V)) (hn : (l.map (·.1)).Nodup) (k : K) : (collect l).get k = find k l := by
  unfold collect
  rw [get_foldl_insert l hn k]
  cases find k l <;> simp

end HMap
end NdHist
