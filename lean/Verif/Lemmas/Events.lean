import Verif.Model.Events
import Verif.Lemmas.Basic
/-! The functions that record events do the same as the ones that do not. -/
namespace Phoenix

theorem Except.map_bind {ε α β γ : Type} (x : Except ε α) (f : α → Except ε β) (g : β → γ) :
    (x >>= f).map g = x >>= fun a => (f a).map g := by cases x <;> rfl
theorem Except.map_ok {ε α β : Type} (a : α) (g : α → β) : (Except.ok a : Except ε α).map g = .ok (g a) := rfl

theorem ok_of_map {α β : Type} {x : Res α} {f : α → β} {y : Res β} (h : y = x.map f) {b : β} :
    y = .ok b ↔ ∃ a, x = .ok a ∧ b = f a := by
  subst h
  cases x with
  | error e => simp [Except.map]
  | ok a => simp [Except.map, eq_comm]

namespace Pool

theorem doSwap_eq (me : Addr) (c : Ctx) (p : State) (L : Ledger) (s o : Addr) (x : Int) (mo ms mf : Option Int) :
    doSwap me c p L s o x mo ms mf = (doSwapE me c p L s o x mo ms mf).map (fun z => (z.1, z.2.1, z.2.2.1)) := by
  simp only [doSwapE, doSwap, Except.map_bind, Except.map_ok]

theorem swap_eq (me : Addr) (c : Ctx) (p : State) (L : Ledger) (s o : Addr) (x : Int) (mo ms : Option Int) (dl : Option Nat) (mf : Option Int) :
    swap me c p L s o x mo ms dl mf = (swapE me c p L s o x mo ms dl mf).map (fun z => (z.1, z.2.1, z.2.2.1)) := by
  simp only [swapE, swap, Except.map_bind, Except.map_ok, doSwap_eq]

theorem provide_eq (me : Addr) (c : Ctx) (p : State) (L : Ledger) (s : Addr) (dA mA dB mB cu : Option Int) (dl : Option Nat) :
    provide me c p L s dA mA dB mB cu dl = (provideE me c p L s dA mA dB mB cu dl).map (fun z => (z.1, z.2.1)) := by
  simp only [provideE, provide, Except.map_bind, Except.map_ok]

theorem withdraw_eq (me : Addr) (c : Ctx) (p : State) (L : Ledger) (s : Addr) (sh mA mB : Int) (dl : Option Nat) :
    withdraw me c p L s sh mA mB dl = (withdrawE me c p L s sh mA mB dl).map (fun z => (z.1, z.2.1, z.2.2.1, z.2.2.2.1)) := by
  simp only [withdrawE, Except.map_bind, Except.map_ok]
  cases withdraw me c p L s sh mA mB dl <;> rfl

theorem step_eq (me : Addr) (s : Sys) (t : Tx) : step me s t = (stepE me s t).map (·.1) := by
  cases t with
  | token c tok op => simp only [stepE, Except.map_bind, Except.map_ok]; cases step me s (.token c tok op) <;> rfl
  | pool c k =>
    cases k with
    | init i => simp only [stepE, step, Except.map_bind, Except.map_ok]
    | provide s' dA mA dB mB cu dl =>
      simp only [stepE, step, Except.map_bind, Except.map_ok, provide_eq]
      cases loaded s.pool with
      | error e => rfl
      | ok p => simp only [Except.bind, bind]; cases provideE me c p s.led s' dA mA dB mB cu dl <;> rfl
    | swap s' o x mo ms dl mf =>
      simp only [stepE, step, Except.map_bind, Except.map_ok, swap_eq]
      cases loaded s.pool with
      | error e => rfl
      | ok p => simp only [Except.bind, bind]; cases swapE me c p s.led s' o x mo ms dl mf <;> rfl
    | withdraw s' sh mA mB dl =>
      simp only [stepE, step, Except.map_bind, Except.map_ok, withdraw_eq]
      cases loaded s.pool with
      | error e => rfl
      | ok p => simp only [Except.bind, bind]; cases withdrawE me c p s.led s' sh mA mB dl <;> rfl
    | updateConfig u => simp only [stepE, Except.map_bind, Except.map_ok]; cases step me s (.pool c (.updateConfig u)) <;> rfl
    | upgrade u => simp only [stepE, Except.map_bind, Except.map_ok]; cases step me s (.pool c (.upgrade u)) <;> rfl

theorem log_cons (me : Addr) (s : Sys) (t : Tx) (ts : List Tx) :
    (∃ s' ev, step me s t = .ok s' ∧ stepE me s t = .ok (s', ev) ∧ exec me s t = s' ∧ log me s (t :: ts) = ev ++ log me s' ts) ∨
    ((∃ e, step me s t = .error e) ∧ exec me s t = s ∧ log me s (t :: ts) = log me s ts) := by
  have h := step_eq me s t
  have l : log me s (t :: ts) = match stepE me s t with
    | .ok (s', ev) => ev ++ log me s' ts
    | .error _ => log me s ts := rfl
  unfold exec
  rw [l]
  cases hE : stepE me s t with
  | error e => rw [hE] at h; simp only [Except.map] at h; rw [h]; exact .inr ⟨⟨e, rfl⟩, rfl, rfl⟩
  | ok q => obtain ⟨s', ev⟩ := q; rw [hE] at h; simp only [Except.map] at h; rw [h]; exact .inl ⟨s', ev, rfl, rfl, rfl, rfl⟩

end Pool

namespace Stable

theorem doSwap_eq (me : Addr) (c : Ctx) (p : State) (L : Ledger) (s o : Addr) (x : Int) (mo ms mf : Option Int) :
    doSwap me c p L s o x mo ms mf = (doSwapE me c p L s o x mo ms mf).map (fun z => (z.1, z.2.1, z.2.2.1)) := by
  simp only [doSwapE, doSwap, Except.map_bind, Except.map_ok]

theorem swap_eq (me : Addr) (c : Ctx) (p : State) (L : Ledger) (s o : Addr) (x : Int) (mo ms : Option Int) (dl : Option Nat) (mf : Option Int) :
    swap me c p L s o x mo ms dl mf = (swapE me c p L s o x mo ms dl mf).map (fun z => (z.1, z.2.1, z.2.2.1)) := by
  simp only [swapE, swap, Except.map_bind, Except.map_ok, doSwap_eq]

theorem provide_eq (me : Addr) (c : Ctx) (p : State) (L : Ledger) (s : Addr) (a b : Int) (cu : Option Int) (dl ms : Option Nat) :
    provide me c p L s a b cu dl ms = (provideE me c p L s a b cu dl ms).map (fun z => (z.1, z.2.1)) := by
  simp only [provideE, provide, Except.map_bind, Except.map_ok]

theorem withdraw_eq (me : Addr) (c : Ctx) (p : State) (L : Ledger) (s : Addr) (sh mA mB : Int) (dl : Option Nat) :
    withdraw me c p L s sh mA mB dl = (withdrawE me c p L s sh mA mB dl).map (fun z => (z.1, z.2.1, z.2.2.1, z.2.2.2.1)) := by
  simp only [withdrawE, Except.map_bind, Except.map_ok]
  cases withdraw me c p L s sh mA mB dl <;> rfl

theorem step_eq (me : Addr) (s : Sys) (t : Tx) : step me s t = (stepE me s t).map (·.1) := by
  cases t with
  | token c tok op => simp only [stepE, Except.map_bind, Except.map_ok]; cases step me s (.token c tok op) <;> rfl
  | pool c k =>
    cases k with
    | init i => simp only [stepE, step, Except.map_bind, Except.map_ok]
    | provide s' a b cu dl ms =>
      simp only [stepE, step, Except.map_bind, Except.map_ok, provide_eq]
      cases loaded s.pool with
      | error e => rfl
      | ok p => simp only [Except.bind, bind]; cases provideE me c p s.led s' a b cu dl ms <;> rfl
    | swap s' o x mo ms dl mf =>
      simp only [stepE, step, Except.map_bind, Except.map_ok, swap_eq]
      cases loaded s.pool with
      | error e => rfl
      | ok p => simp only [Except.bind, bind]; cases swapE me c p s.led s' o x mo ms dl mf <;> rfl
    | withdraw s' sh mA mB dl =>
      simp only [stepE, step, Except.map_bind, Except.map_ok, withdraw_eq]
      cases loaded s.pool with
      | error e => rfl
      | ok p => simp only [Except.bind, bind]; cases withdrawE me c p s.led s' sh mA mB dl <;> rfl
    | updateConfig a u => simp only [stepE, Except.map_bind, Except.map_ok]; cases step me s (.pool c (.updateConfig a u)) <;> rfl

theorem log_cons (me : Addr) (s : Sys) (t : Tx) (ts : List Tx) :
    (∃ s' ev, step me s t = .ok s' ∧ stepE me s t = .ok (s', ev) ∧ exec me s t = s' ∧ log me s (t :: ts) = ev ++ log me s' ts) ∨
    ((∃ e, step me s t = .error e) ∧ exec me s t = s ∧ log me s (t :: ts) = log me s ts) := by
  have h := step_eq me s t
  have l : log me s (t :: ts) = match stepE me s t with
    | .ok (s', ev) => ev ++ log me s' ts
    | .error _ => log me s ts := rfl
  unfold exec
  rw [l]
  cases hE : stepE me s t with
  | error e => rw [hE] at h; simp only [Except.map] at h; rw [h]; exact .inr ⟨⟨e, rfl⟩, rfl, rfl⟩
  | ok q => obtain ⟨s', ev⟩ := q; rw [hE] at h; simp only [Except.map] at h; rw [h]; exact .inl ⟨s', ev, rfl, rfl, rfl, rfl⟩

end Stable

namespace Stake

theorem step_eq (me : Addr) (s : Sys) (t : Tx) : step me s t = (stepE me s t).map (·.1) := by
  simp only [stepE, Except.map_bind]
  cases t <;> (simp only [Except.map_ok]; cases step me s _ <;> rfl)

theorem log_cons (me : Addr) (s : Sys) (t : Tx) (ts : List Tx) :
    (∃ s' ev, step me s t = .ok s' ∧ stepE me s t = .ok (s', ev) ∧ exec me s t = s' ∧ log me s (t :: ts) = ev ++ log me s' ts) ∨
    ((∃ e, step me s t = .error e) ∧ exec me s t = s ∧ log me s (t :: ts) = log me s ts) := by
  have h := step_eq me s t
  have l : log me s (t :: ts) = match stepE me s t with
    | .ok (s', ev) => ev ++ log me s' ts
    | .error _ => log me s ts := rfl
  unfold exec
  rw [l]
  cases hE : stepE me s t with
  | error e => rw [hE] at h; simp only [Except.map] at h; rw [h]; exact .inr ⟨⟨e, rfl⟩, rfl, rfl⟩
  | ok q => obtain ⟨s', ev⟩ := q; rw [hE] at h; simp only [Except.map] at h; rw [h]; exact .inl ⟨s', ev, rfl, rfl, rfl, rfl⟩

end Stake

namespace Vesting

theorem claim_eq (me : Addr) (c : Ctx) (v : State) (L : Ledger) (s : Addr) (i : Nat) :
    claim me c v L s i = (claimE me c v L s i).map (fun z => (z.1, z.2.1)) := by
  simp only [claimE, claim, Except.map_bind, Except.map_ok]

theorem step_eq (me : Addr) (s : Sys) (t : Tx) : step me s t = (stepE me s t).map (·.1) := by
  cases t with
  | token c tok op => simp only [stepE, Except.map_bind, Except.map_ok]; cases step me s (.token c tok op) <;> rfl
  | vest c k =>
    cases k with
    | claim s' i =>
      simp only [stepE, step, Except.map_bind, Except.map_ok, claim_eq]
      cases loaded s.vest with
      | error e => rfl
      | ok p => simp only [Except.bind, bind]; cases claimE me c p s.led s' i <;> rfl
    | init a t m mi => simp only [stepE, Except.map_bind, Except.map_ok]; cases step me s (.vest c (.init a t m mi)) <;> rfl
    | create l => simp only [stepE, Except.map_bind, Except.map_ok]; cases step me s (.vest c (.create l)) <;> rfl
    | burn a x => simp only [stepE, Except.map_bind, Except.map_ok]; cases step me s (.vest c (.burn a x)) <;> rfl
    | mint a x => simp only [stepE, Except.map_bind, Except.map_ok]; cases step me s (.vest c (.mint a x)) <;> rfl
    | updateMinter a x => simp only [stepE, Except.map_bind, Except.map_ok]; cases step me s (.vest c (.updateMinter a x)) <;> rfl
    | updateCapacity a x => simp only [stepE, Except.map_bind, Except.map_ok]; cases step me s (.vest c (.updateCapacity a x)) <;> rfl

theorem log_cons (me : Addr) (s : Sys) (t : Tx) (ts : List Tx) :
    (∃ s' ev, step me s t = .ok s' ∧ stepE me s t = .ok (s', ev) ∧ exec me s t = s' ∧ log me s (t :: ts) = ev ++ log me s' ts) ∨
    ((∃ e, step me s t = .error e) ∧ exec me s t = s ∧ log me s (t :: ts) = log me s ts) := by
  have h := step_eq me s t
  have l : log me s (t :: ts) = match stepE me s t with
    | .ok (s', ev) => ev ++ log me s' ts
    | .error _ => log me s ts := rfl
  unfold exec
  rw [l]
  cases hE : stepE me s t with
  | error e => rw [hE] at h; simp only [Except.map] at h; rw [h]; exact .inr ⟨⟨e, rfl⟩, rfl, rfl⟩
  | ok q => obtain ⟨s', ev⟩ := q; rw [hE] at h; simp only [Except.map] at h; rw [h]; exact .inl ⟨s', ev, rfl, rfl, rfl, rfl⟩

end Vesting

namespace World

theorem step_eq (h : Host) (w : World) (c : Ctx) (k : Call) : step h w c k = (stepF h w c k).map (·.1) := by
  have gen : ∀ k, step h w c k = (step h w c k >>= fun w' => (.ok (w', ([] : List (Addr × Event))) : Res _)).map (·.1) := by
    intro k; cases step h w c k <;> rfl
  cases k with
  | facInit F admin lp stb stk tok wl dec =>
    simp only [stepF, Except.map_bind, Except.map_ok]; cases step h w c (.facInit F admin lp stb stk tok wl dec) <;> rfl
  | create F sender i k amp sl mf =>
    simp only [stepF, step, Except.map_bind, Except.map_ok]
  | _ => exact gen _

theorem facLog_cons (h : Host) (w : World) (t : Tx) (ts : List Tx) :
    (∃ w' ev, step h w t.ctx t.call = .ok w' ∧ stepF h w t.ctx t.call = .ok (w', ev) ∧ exec h w t = w' ∧
      facLog h w (t :: ts) = ev ++ facLog h w' ts) ∨
    ((∃ e, step h w t.ctx t.call = .error e) ∧ exec h w t = w ∧ facLog h w (t :: ts) = facLog h w ts) := by
  have e := step_eq h w t.ctx t.call
  have l : facLog h w (t :: ts) = match stepF h w t.ctx t.call with
    | .ok (w', ev) => ev ++ facLog h w' ts
    | .error _ => facLog h w ts := rfl
  unfold exec
  rw [l]
  cases hE : stepF h w t.ctx t.call with
  | error e' => rw [hE] at e; simp only [Except.map] at e; rw [e]; exact .inr ⟨⟨e', rfl⟩, rfl, rfl⟩
  | ok q => obtain ⟨s', ev⟩ := q; rw [hE] at e; simp only [Except.map] at e; rw [e]; exact .inl ⟨s', ev, rfl, rfl, rfl, rfl⟩

end World

end Phoenix
