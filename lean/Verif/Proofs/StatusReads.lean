import Verif.Proofs.Reads

/-!
# A status call whose reads are at different moments
-/

namespace Opsqueue
open SubmissionDb

/-- The answer is true at one of the moments of the reads. -/
theorem status_moment (id : SubmissionId) (xs y1 y2 y3 : List Op) (hf : FreshIds (xs ++ (y1 ++ y2 ++ y3)))
    (r : Option SubmissionStatus)
    (h : statusReads id (run xs) (run (xs ++ y1)) (run (xs ++ (y1 ++ y2)))
      (run (xs ++ (y1 ++ y2 ++ y3))) (run (xs ++ (y1 ++ y2 ++ y3))) = .ok r) :
    statusAt (run xs) id = .ok r ∨ statusAt (run (xs ++ y1)) id = .ok r ∨
    statusAt (run (xs ++ (y1 ++ y2))) id = .ok r ∨ statusAt (run (xs ++ (y1 ++ y2 ++ y3))) id = .ok r := by
  have f2 : FreshIds (xs ++ (y1 ++ y2)) := FreshIds.prefix (ys := y3) (by simpa using hf)
  have f1 : FreshIds (xs ++ y1) := FreshIds.prefix (ys := y2) (by simpa using f2)
  have f0 : FreshIds xs := f1.prefix
  have hI0 := inv_run f0
  have hI1 := inv_run f1
  have hI2 := inv_run f2
  have hI3 := inv_run hf
  unfold statusReads at h
  split at h
  · -- found in submissions
    rename_i s hs
    obtain ⟨w, hw, rfl, rfl⟩ := selectSubmission_some hs
    left
    rw [statusAt_sub hI0 hw]
    simpa using h
  · rename_i hs
    split at h
    · rename_i s hc
      obtain ⟨w, hw, rfl, rfl⟩ := selectCompleted_some hc
      right; left
      rw [statusAt_comp hI1 hw]
      simpa using h
    · rename_i hc
      split at h
      · rename_i s hfl
        obtain ⟨w, hw, rfl, rfl⟩ := selectFailed_some hfl
        split at h
        · rename_i c hcf
          obtain ⟨d, hd, hk, rfl⟩ := selectChunkFailed_ok hcf
          have hsid : d.submissionId = w.id := congrArg ChunkId.submissionId hk
          right; right; left
          have hin : d ∈ (run (xs ++ (y1 ++ y2))).chunksFailed := by
            refine cf_since (ys := y3) (by simpa using hf) ?_ ?_ (by simpa using hd)
            · rw [hsid]; exact known_inserted f2 (mem_allIds_fail hw)
            · rw [hsid]; exact not_sub_of_fail hI2 (List.mem_map_of_mem hw)
          rw [statusAt_fail_ok hI2 hw hin hk]
          simpa using h
        · simp at h
      · rename_i hfl
        split at h
        · rename_i s hca
          obtain ⟨w, hw, rfl, rfl⟩ := selectCancelled_some hca
          right; right; right
          rw [statusAt_canc hI3 hw]
          simpa using h
        · -- nothing found
          rename_i hca
          simp only [Except.ok.injEq] at h
          subst h
          by_cases hk : id ∈ allIds (run xs)
          · right; right; right; refine statusAt_none ?_
            have hs' := selectSubmission_none.1 hs
            have hc' := selectCompleted_none.1 hc
            have hf' := selectFailed_none.1 hfl
            have hca' := selectCancelled_none.1 hca
            unfold allIds at hk
            simp only [List.mem_append] at hk
            rcases hk with ((hk | hk) | hk) | hk
            · exact absurd hk hs'
            · obtain ⟨w, hw, rfl⟩ := List.mem_map.1 hk
              have hu := known_inserted f0 (mem_allIds_comp hw)
              rcases comp_stable f1 hw with h' | ⟨_, h'⟩
              · exact absurd (List.mem_map_of_mem h') hc'
              · have := gone_stays (ys := y2 ++ y3) (by simpa using hf)
                  (by rw [List.filterMap_append]; exact List.mem_append_left _ hu) h'
                simpa using this
            · obtain ⟨w, hw, rfl⟩ := List.mem_map.1 hk
              have hu := known_inserted f0 (mem_allIds_fail hw)
              rcases fail_stable f2 hw with h' | ⟨_, h'⟩
              · exact absurd (List.mem_map_of_mem h') hf'
              · have := gone_stays (ys := y3) (by simpa using hf)
                  (by rw [List.filterMap_append]; exact List.mem_append_left _ hu) h'
                simpa using this
            · obtain ⟨w, hw, rfl⟩ := List.mem_map.1 hk
              rcases canc_stable hf hw with h' | ⟨_, h'⟩
              · exact absurd (List.mem_map_of_mem h') hca'
              · exact h'
          · exact .inl (statusAt_none hk)

end Opsqueue
