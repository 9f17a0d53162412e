import Verif.Proofs.InstallFacts
import Verif.Props.Chain

/-!
# Bad ciphers are never installed

The party or backend is process `i` of a network whose other processes and queues are
arbitrary, so it may receive anything.
-/

namespace DPPIR.Props
open DPPIR Proc Onion Spec Protocol

variable {box : SealedBox}

/-- What the record `t` of calls of a process holding the keys `pk`, `sk` must satisfy:

* the j-th secret installed is the head of the plaintext of the j-th cipher received;
* if the j-th cipher received does not open, no more than `j` secrets are installed, and
  once it is received the process only receives further ciphers or installs earlier
  ones: it sends no cipher, ready signal, query or response, and makes no lookup. -/
def OnlyOpened (pk : box.PKey) (sk : box.SKey) (t : List Obs) : Prop :=
  (∀ (j : Nat) s, (stores t)[j]? = some s → ∃ m plain, (ciphersRead t)[j]? = some m ∧ box.openMsg pk sk m = some plain ∧
    s = OfflineSecret.decode (plain.take secretSize)) ∧
  ∀ (j : Nat) m, (ciphersRead t)[j]? = some m → box.openMsg pk sk m = none →
    (stores t).length ≤ j ∧
    ∀ a o b, t = a ++ o :: b → m ∈ ciphersRead a → (∃ c, o = .recvCipher c) ∨ ∃ s, o = .store s

theorem onlyOpened {pk : box.PKey} {sk : box.SKey} {t : List Obs} (h : ∀ a o b, t = a ++ o :: b → Justified pk sk a o) :
    OnlyOpened pk sk t :=
  ⟨justified_stores t h, fun _ _ hj hm => ⟨justified_bad h hj hm, fun _ _ _ ht hma => justified_after h ht hma hm⟩⟩

theorem stops_of_safe {pk : box.PKey} {sk : box.SKey} {p : Prog Nat Unit}
    (hp : Safe (Justified pk sk) StopOk p (fun _ h => AllIn h) []) :
    ∃ N, ∀ input : List Byte, N ≤ input.length → ∃ t r, feed input p = some (t, r) ∧ OnlyOpened pk sk t ∧
      ((∃ m ∈ ciphersRead t, box.openMsg pk sk m = none) → r = .error .assertFail) := by
  obtain ⟨N, hN⟩ := feed_ends p
  refine ⟨N, fun l hl => ?_⟩
  obtain ⟨⟨t, r⟩, ht⟩ := hN l hl
  obtain ⟨h1, h2, h3⟩ := hp.feed ht
  have hj : ∀ a o b, t = a ++ o :: b → Justified pk sk a o := by simpa using h1
  refine ⟨t, r, ht, onlyOpened hj, ?_⟩
  rintro ⟨m, hm, hbad⟩
  obtain ⟨j, hlt, rfl⟩ := List.mem_iff_getElem.1 hm
  have hle := justified_bad hj (List.getElem?_eq_getElem hlt) hbad
  cases r with
  | ok a =>
    have : (stores t).length = (ciphersRead t).length := h2 a rfl
    omega
  | error e => rw [h3 e rfl (by simp only [List.nil_append]; omega)]

theorem net_of_safe {pk : box.PKey} {sk : box.SKey} {i : Nat} {n0 n : Net Nat Obs} {cap : Nat × Nat → Nat} {s : List Nat}
    (hp : Safe (Justified pk sk) StopOk (n0.proc i) (fun _ h => AllIn h) []) (h0 : n0.seen i = []) (hn : n0.run cap s = some n) :
    OnlyOpened pk sk (n.seen i) ∧
      ((∃ m ∈ ciphersRead (n.seen i), box.openMsg pk sk m = none) →
        ¬ n.Finished i ∧ ∀ e, n.proc i = .fault e → e = .assertFail) := by
  obtain ⟨h1, t, h2, h3⟩ := Safe.net s n0 n (by rw [h0]; exact hp) hn
  rw [h0, List.nil_append] at h2
  have hj : ∀ a o b, n.seen i = a ++ o :: b → Justified pk sk a o := by
    rw [h2]
    simpa [h0] using h3
  refine ⟨onlyOpened hj, ?_⟩
  rintro ⟨m, hm, hbad⟩
  obtain ⟨j, hlt, rfl⟩ := List.mem_iff_getElem.1 hm
  have hle := justified_bad hj (List.getElem?_eq_getElem hlt) hbad
  refine ⟨?_, ?_⟩
  · intro hf
    rw [hf] at h1
    have : (stores (n.seen i)).length = (ciphersRead (n.seen i)).length := h1
    omega
  · intro e he
    rw [he] at h1
    exact h1 (by omega)

/-- **C09.** A party, whatever the other processes send and however the run is
scheduled. -/
theorem C09_party (c : Chain box) (k : Nat) (offline online : Bool) (i : Nat) (n0 n : Net Nat Obs) (cap : Nat × Nat → Nat) (s : List Nat)
    (hp : n0.proc i = c.party k offline online) (h0 : n0.seen i = []) (hn : n0.run cap s = some n) :
    OnlyOpened (c.pkey k) (c.skey k) (n.seen i) ∧
      ((∃ m ∈ ciphersRead (n.seen i), box.openMsg (c.pkey k) (c.skey k) m = none) →
        ¬ n.Finished i ∧ ∀ e, n.proc i = .fault e → e = .assertFail) :=
  net_of_safe (by rw [hp]; exact party_safe c k offline online) h0 hn

/-- **C09.** The backend, whatever the other processes send. -/
theorem C09_backend (c : Chain box) (offline online : Bool) (i : Nat) (n0 n : Net Nat Obs) (cap : Nat × Nat → Nat) (s : List Nat)
    (hp : n0.proc i = c.backend offline online) (h0 : n0.seen i = []) (hn : n0.run cap s = some n) :
    OnlyOpened (c.pkey (c.parties - 1)) (c.skey (c.parties - 1)) (n.seen i) ∧
      ((∃ m ∈ ciphersRead (n.seen i), box.openMsg (c.pkey (c.parties - 1)) (c.skey (c.parties - 1)) m = none) →
        ¬ n.Finished i ∧ ∀ e, n.proc i = .fault e → e = .assertFail) :=
  net_of_safe (by rw [hp]; exact backend_safe c offline online) h0 hn

/-- **C09.** It does stop: given enough input bytes, whatever they are, a party ends, and
if one of the ciphers it read does not open it ends with a failed assertion. -/
theorem C09_party_stops (c : Chain box) (k : Nat) (offline online : Bool) :
    ∃ N, ∀ input : List Byte, N ≤ input.length → ∃ t r, feed input (c.party k offline online) = some (t, r) ∧
      OnlyOpened (c.pkey k) (c.skey k) t ∧
      ((∃ m ∈ ciphersRead t, box.openMsg (c.pkey k) (c.skey k) m = none) → r = .error .assertFail) :=
  stops_of_safe (party_safe c k offline online)

/-- **C09.** The same for the backend. -/
theorem C09_backend_stops (c : Chain box) (offline online : Bool) :
    ∃ N, ∀ input : List Byte, N ≤ input.length → ∃ t r, feed input (c.backend offline online) = some (t, r) ∧
      OnlyOpened (c.pkey (c.parties - 1)) (c.skey (c.parties - 1)) t ∧
      ((∃ m ∈ ciphersRead t, box.openMsg (c.pkey (c.parties - 1)) (c.skey (c.parties - 1)) m = none) → r = .error .assertFail) :=
  stops_of_safe (backend_safe c offline online)

/-- How a fed process ended: with a failed assertion, the number of secrets installed,
and for each cipher received whether it opens. -/
def summary (pk : toyBox.PKey) (sk : toyBox.SKey) (x : List Obs × Except Fault Unit) : Bool × Nat × List Bool :=
  (match x.2 with | .error .assertFail => true | _ => false, (stores x.1).length,
    (ciphersRead x.1).map (fun m => (toyBox.openMsg pk sk m).isSome))

/-- Non-vacuity of C09: a backend that expects two ciphers, gets one that opens and one
with the header of another key, installs the first and stops at the second. -/
example : (feed ([2, 0, 0, 0] ++ List.replicate 48 3 ++ List.replicate 76 1 ++ List.replicate 124 0) (exampleChain.backend true true)).map
    (summary (exampleChain.pkey 2) (exampleChain.skey 2)) = some (true, 1, [true, false]) := by
  decide +kernel

/-- Non-vacuity of C09 for a party: three ciphers, the second does not open. -/
example : (feed ([3, 0, 0, 0] ++ [1] ++ List.replicate 48 2 ++ List.replicate 200 1 ++ List.replicate 248 0 ++ List.replicate 248 2)
      (exampleChain.party 1 true true)).map
    (summary (exampleChain.pkey 1) (exampleChain.skey 1)) = some (true, 1, [true, false, true]) := by
  decide +kernel

end DPPIR.Props
