import Verif.Model.Udp
import Verif.Spec.Udp
import Verif.Props.Codec
import Verif.Lemmas.Pipe
import Verif.Lemmas.ConnLoop
import Verif.Lemmas.Mux
import Verif.Props.Connection
/-! # Lemmas about the UDP server -/
namespace Tcpx
open Spec

theorem headerBytesOf_huge (s : Slice) (hn : 2^31 - 16 ≤ declaredHeaderLen s.live) :
    headerBytesOf s = if s.len < 12 ∨ (s.len : Int) < 16 + signed32 (declaredHeaderLen s.live) then .err .short else .panic := by
  by_cases h : s.len < 12 ∨ (s.len : Int) < 16 + signed32 (declaredHeaderLen s.live)
  · rw [if_pos h]
    unfold headerBytesOf
    rw [headerLengthOf_eq]
    by_cases h12 : s.len < 12
    · rw [if_pos h12]; rfl
    · rw [if_neg h12, Res.bind_ok]
      simp only [toInt32_toInt _ (fieldAt_lt s.live 8)]
      exact if_pos (h.resolve_left h12)
  · rw [if_neg h]
    exact (C11_header_panic_iff s).2 (by omega)

theorem routerTypeWith_panic (json : JSONCodec) (c : Option Any) (b : Bytes) (h : routerTypeWith json c b = .panic) :
    headerOf json { live := b } = .panic := by
  unfold routerTypeWith at h
  split at h
  · cases h
  · split at h
    · cases h
    · split at h
      · cases h
      · assumption
      · cases h
      · repeat' split at h
        all_goals cases h

/-- Whatever was registered, framework code panics for a message only if `HeaderOf` does. -/
theorem handleMiddleware_panic (h : List RegEv) (json : JSONCodec) (c : Nat → Option Any) (b : Bytes)
    (hp : handleMiddleware (runHist h) json c (some b) = .panic) : headerOf json { live := b } = .panic := by
  have d1 : ∀ id, (runHist h).dispatchId id ≠ .panic := by
    intro id
    have := dispatchId_eq h id
    cases hr : registration id h with
    | none => rw [hr] at this; simp only at this; rw [this]; simp
    | some p =>
      obtain ⟨pre, hs⟩ := p
      rw [hr] at this
      obtain ⟨f, post, _, _, t1, t2⟩ := this
      by_cases hbp : bypasses h id
      · rw [t1 hbp]; simp
      · rw [t2 hbp]; simp
  have d2 : ∀ p, (runHist h).dispatchUrl p ≠ .panic := by
    intro p
    have := dispatchUrl_eq h p
    cases hr : urlRegistration p h with
    | none => rw [hr] at this; simp only at this; rw [this]; simp
    | some q =>
      rw [hr] at this
      obtain ⟨post, _, hx⟩ := this
      rw [hx]
      cases (runHist h).mux.urlMux.get? p <;> simp
  have m1 : handleMessageID (runHist h) b ≠ .panic := by
    unfold handleMessageID
    rw [messageIDOf_eq]
    split
    · rename_i id hx; exact d1 id
    · simp
    · rename_i hx; split at hx <;> cases hx
    · simp
  have m2 : handleURLPattern (runHist h) json b = .panic → headerOf json { live := b } = .panic := by
    unfold handleURLPattern urlPatternOf
    cases hh : headerOf json { live := b } with
    | ok hd =>
      simp only [Res.bind_ok]
      cases hg : headerGetString hd HEADER_ROUTER_VALUE with
      | ok v => simp only [Res.bind_ok]; intro hx; exact absurd hx (d2 _)
      | err e => simp
      | block => simp
      | panic =>
        unfold headerGetString at hg
        split at hg
        · cases hg
        · split at hg
          · cases hg
          · split at hg <;> cases hg
    | err e => simp
    | block => simp
    | panic => simp
  simp only [handleMiddleware] at hp
  cases ho : (runHist h).onMessage with
  | some f => rw [ho] at hp; simp [Srv.dispatchOnMessage] at hp
  | none =>
    rw [ho] at hp
    simp only at hp
    split at hp
    · cases hp
    · exact routerTypeWith_panic json _ b (by assumption)
    · cases hp
    · split at hp
      · exact absurd hp m1
      · split at hp
        · cases hp
        · exact routerTypeWith_panic json _ b (by assumption)
        · cases hp
        · split at hp
          · exact m2 hp
          · split at hp
            · exact routerTypeWith_panic json _ b (by assumption)
            · cases hp

end Tcpx
