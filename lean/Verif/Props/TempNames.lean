import Verif.Proofs.TempNames

/-
Properties C25 and C51: names of temporary tables and of their indexes.
-/
namespace Subsetter.Props
open Subsetter

/-! ### C25 -/

/-- C25: the temporary tables created in one run have pairwise different names, whatever the
requested names (`_` is not alphanumeric). -/
theorem c25_names_distinct {alnum : Char → Bool} (hs : alnum '_' = false) (names : List Str) :
    (generateNames alnum [] names).Nodup := generateNames_nodup hs names []

/-- Every created table gets a name that starts with the reserved prefix. -/
theorem c25_names_prefixed (alnum : Char → Bool) (names : List Str) :
    (generateNames alnum [] names).length = names.length ∧
    ∀ x ∈ generateNames alnum [] names, namePrefix <+: x := by
  refine ⟨?_, fun x hx => ?_⟩
  · have : ∀ (names : List Str) (counts : Dict Str Nat),
        (generateNames alnum counts names).length = names.length := by
      intro names
      induction names with
      | nil => intro _; rfl
      | cons n ns ih => intro counts; simp [generateNames, generateName, ih]
    exact this names []
  · obtain ⟨n, c, -, -, rfl⟩ := generateNames_mem hx
    unfold numbered
    split
    · exact List.prefix_append ..
    · rw [List.append_assoc]; exact List.prefix_append ..

/-- `Char.isAlphanum` is a suitable `isalnum`; names differing in other characters only, a name that
looks like a numbered one, and empty names. -/
example : generateNames Char.isAlphanum [] [str! "a_b", str! "ab", str! "ab1", str! "ab", str! "-", str! ""] =
    [str! "_sbsttr_ab", str! "_sbsttr_ab_1", str! "_sbsttr_ab1", str! "_sbsttr_ab_2",
     str! "_sbsttr_anon", str! "_sbsttr_anon_1"] := by decide +kernel

example : Char.isAlphanum '_' = false := by decide

/-! ### C51 -/

/-- C51: the index names of the temporary tables of a run are pairwise different and differ from
all names of temporary tables (PostgreSQL keeps both in one name space). -/
theorem c51_index_names_distinct {alnum : Char → Bool} (hs : alnum '_' = false) {names : List Str}
    {x y : Str} (hx : x ∈ generateNames alnum [] names) (hy : y ∈ generateNames alnum [] names)
    (i j : Nat) :
    (indexName x i = indexName y j → x = y ∧ i = j) ∧ indexName x i ≠ y := by
  obtain ⟨n, c, hn, rfl⟩ := indexName_split hs hx
  obtain ⟨n', c', hn', rfl⟩ := indexName_split hs hy
  have hidx : ∀ k, str! "_idx_" ++ natStr k = '_' :: (str! "idx" ++ '_' :: natStr k) := fun k => rfl
  have hi : '_' ∉ str! "idx" := by decide
  unfold indexName numbered
  constructor
  · intro h
    split at h <;> split at h <;>
      simp only [List.append_assoc, hidx, List.cons_append] at h
    · obtain ⟨h1, h2⟩ := sep_split hn hn' (List.append_cancel_left h)
      obtain ⟨-, h3⟩ := sep_split hi hi h2
      rename_i h4 h5
      simp only [h4, h5, if_true, h1, true_and]
      exact natStr_inj h3
    · obtain ⟨h1, h2⟩ := sep_split hn hn' (List.append_cancel_left h)
      obtain ⟨h3, -⟩ := sep_split hi (natStr_no_sep _) h2
      exfalso
      have : 'i' ∈ natStr c' := by rw [← h3]; simp
      have := natStr_digit this
      revert this; decide
    · obtain ⟨h1, h2⟩ := sep_split hn hn' (List.append_cancel_left h)
      obtain ⟨h3, -⟩ := sep_split (natStr_no_sep _) hi h2
      exfalso
      have : 'i' ∈ natStr c := by rw [h3]; simp
      have := natStr_digit this
      revert this; decide
    · obtain ⟨h1, h2⟩ := sep_split hn hn' (List.append_cancel_left h)
      obtain ⟨h3, h4⟩ := sep_split (natStr_no_sep _) (natStr_no_sep _) h2
      obtain ⟨-, h5⟩ := sep_split hi hi h4
      rw [h1, natStr_inj h3]
      exact ⟨rfl, natStr_inj h5⟩
  · intro h
    split at h <;> split at h <;>
      simp only [List.append_assoc, hidx, List.cons_append] at h
    · have := List.append_cancel_left h
      exact absurd (by rw [← this]; simp) hn'
    · obtain ⟨h1, h2⟩ := sep_split hn hn' (List.append_cancel_left h)
      have : '_' ∈ natStr c' := by rw [← h2]; simp
      exact natStr_no_sep _ this
    · have := List.append_cancel_left h
      exact absurd (by rw [← this]; simp) hn'
    · obtain ⟨h1, h2⟩ := sep_split hn hn' (List.append_cancel_left h)
      have : '_' ∈ natStr c' := by rw [← h2]; simp
      exact natStr_no_sep _ this

example : indexName (str! "_sbsttr_ab_1") 0 = str! "_sbsttr_ab_1_idx_0" := by decide +kernel

/-! ### C52 -/

/-- C52 is false: names differing only in case give table names differing only in case, which are
the same table on a database with case-insensitive names. -/
theorem c52_case_collision :
    (generateNames Char.isAlphanum [] [str! "Users", str! "users"]).map (List.map Char.toLower) =
      [str! "_sbsttr_users", str! "_sbsttr_users"] := by decide +kernel

/-- The part of C52 that holds: if no two requested names with the same case folding differ, folding
keeps the generated names apart. -/
theorem c52_case_insensitive_partial {alnum : Char → Bool} (hs : alnum '_' = false) {fold : Char → Char}
    {names : List Str}
    (hc : ∀ a ∈ names, ∀ b ∈ names, (friendlyName alnum a).map fold = (friendlyName alnum b).map fold →
      friendlyName alnum a = friendlyName alnum b)
    (hsep : ∀ c, fold c = '_' ↔ c = '_') (hd : ∀ c, c.isDigit = true → fold c = c)
    (hp : namePrefix.map fold = namePrefix) :
    ((generateNames alnum [] names).map (List.map fold)).Nodup := by
  refine List.Nodup.map_on ?_ (c25_names_distinct hs names)
  intro x hx y hy h
  obtain ⟨a, c, ha, -, rfl⟩ := generateNames_mem hx
  obtain ⟨b, d, hb, -, rfl⟩ := generateNames_mem hy
  have hmap : ∀ {n : Str}, '_' ∉ n → '_' ∉ n.map fold := fun hn h => by
    obtain ⟨c, h1, h2⟩ := List.mem_map.1 h
    exact hn ((hsep c).1 h2 ▸ h1)
  have hnum : ∀ n, (natStr n).map fold = natStr n := fun n => by
    conv_rhs => rw [← List.map_id (natStr n)]
    exact List.map_congr_left fun c hc => hd c (natStr_digit hc)
  have hmn : ∀ n c, (numbered n c).map fold = numbered (n.map fold) c := by
    intro n c
    unfold numbered
    split
    · rw [List.map_append, hp]
    · rw [List.map_append, List.map_append, hp, List.map_cons, hnum, (hsep '_').2 rfl]
  rw [hmn, hmn] at h
  obtain ⟨h1, h2⟩ := numbered_inj (hmap (friendlyName_no_sep hs a)) (hmap (friendlyName_no_sep hs b)) h
  rw [hc a ha b hb h1, h2]

/-- The hypotheses hold for ASCII lower-casing of some names. -/
example : ((generateNames Char.isAlphanum [] [str! "Users", str! "Users", str! "items"]).map
    (List.map Char.toLower)).Nodup := by decide +kernel

end Subsetter.Props
