import Verif.Lemmas.Routing
/-!
# Where the handlers of a URL pattern come from
-/
namespace Tcpx
open Spec

theorem mem_anyAdds {b : Bool} {hs : List H} {f : H} (h : f ∈ anyAdds b hs) : f ∈ hs := by
  unfold anyAdds at h
  rcases List.mem_append.1 h with h | h
  · split at h
    · exact h
    · simp at h
  · split at h
    · exact h
    · simp at h

/-- Every handler of a pattern was given to `Any` for that pattern, after every history. -/
theorem url_origin (h : List RegEv) (p : String) (l : List H) (hl : (runHist h).mux.urlMux.get? p = some l) (f : H) (hf : f ∈ l) :
    ∃ hs, RegEv.any p hs ∈ h ∧ f ∈ hs := by
  induction h generalizing l with
  | nil => simp [runHist, Srv.new] at hl
  | cons e h ih =>
    by_cases ht : e.touchesUrls = false
    · simp only [runHist] at hl
      rw [(step_urls (runHist h) e ht).1] at hl
      obtain ⟨hs, h1, h2⟩ := ih l hl hf
      exact ⟨hs, .tail _ h1, h2⟩
    · cases e with
      | any q hs =>
        simp only [runHist, RegEv.step] at hl
        obtain ⟨_, c2, c3⟩ := any_cases (runHist h) q hs
        by_cases hn : hs = []
        · rw [c2 hn] at hl
          obtain ⟨hs, h1, h2⟩ := ih l hl hf
          exact ⟨hs, .tail _ h1, h2⟩
        · rw [(c3 hn).2.1 p] at hl
          split at hl
          · rename_i hq
            obtain ⟨rfl, _⟩ := hq
            simp only [Option.some.injEq] at hl
            rw [← hl] at hf
            rcases List.mem_append.1 hf with hf | hf
            · cases hg : (runHist h).mux.urlMux.get? p with
              | none => rw [hg] at hf; simp at hf
              | some l' =>
                rw [hg] at hf
                obtain ⟨hs, h1, h2⟩ := ih l' hg hf
                exact ⟨hs, .tail _ h1, h2⟩
            · exact ⟨hs, .head _, mem_anyAdds hf⟩
          · obtain ⟨hs, h1, h2⟩ := ih l hl hf
            exact ⟨hs, .tail _ h1, h2⟩
      | _ => exact absurd rfl ht

end Tcpx
