import Verif.Proofs.Backend
import Verif.Proofs.Client
import Verif.Proofs.Batch
import Verif.Proofs.Shuffle
import Verif.Proofs.Noise
import Verif.Model.Party

/-!
# What a party does
-/

namespace DPPIR.Protocol
open DPPIR Proc Onion Incremental Additive Spec Props Shuffle CipherBatch

variable {box : SealedBox} {ι : Type}

/-! ### Noise samples -/

/-- Sum of the first `j` samples. -/
def sampleSum (sample : Nat → BitVec 32) (j : Nat) : Nat := ((List.range j).map (fun i => (sample i).toNat)).sum

theorem sampleSum_succ (sample : Nat → BitVec 32) (j : Nat) :
    sampleSum sample (j + 1) = sampleSum sample j + (sample j).toNat := by
  simp [sampleSum, List.range_succ]

theorem sampleSum_mono (sample : Nat → BitVec 32) {i j : Nat} (h : i ≤ j) : sampleSum sample i ≤ sampleSum sample j := by
  induction j, h using Nat.le_induction with
  | base => exact Nat.le_refl _
  | succ j _ ih => rw [sampleSum_succ]; omega

theorem noiseSamples_wrap (p : Party box) (rand : PartyRand box) (rows : Nat) (hrnd : Noise.IsDivRounding rand.rnd)
    (hid : p.serverId = 0) (hsc : p.serverCount = 1) (hdb : p.db.size = rows) (hr0 : 0 < rows) (hr : rows < 2 ^ 32) :
    p.initializeNoiseSamples rand = .ok { p with
      noiseCount := wrap32 (sampleSum rand.sample rows)
      noiseStart := 0
      noiseEnd := rows
      noise := { ptr := (List.range rows).map (fun i => (rand.sample i).toNat), capacity := rows, right := rows } } := by
  have hfr : Noise.findRange rand.rnd (BitVec.ofNat 8 0) (BitVec.ofNat 8 1) rows = .ok (0, rows) := by
    rw [Noise.findRange_eq hrnd (BitVec.ofNat 8 0) (BitVec.ofNat 8 1) (by decide) hr
      (show (BitVec.ofNat 8 1).toNat ≤ rows from hr0)]
    have e0 : (BitVec.ofNat 8 0).toNat = 0 := rfl
    have e1 : (BitVec.ofNat 8 1).toNat = 1 := rfl
    rw [e0, e1, Nat.zero_mul, if_pos (Nat.zero_add 1)]
    rfl
  have e2 : wrap32 (rows + 2 ^ 32 - 0) = rows := by unfold wrap32; omega
  unfold Party.initializeNoiseSamples
  rw [show Noise.findRange rand.rnd (BitVec.ofNat 8 p.serverId) (BitVec.ofNat 8 p.serverCount) p.db.size = .ok (0, rows) by
    rw [hid, hsc, hdb, hfr], bind_ok]
  simp only
  rw [e2]
  obtain ⟨p', h1, h2⟩ := forRange_inv (fun j (p' : Party box) => p' = { p with
      noiseCount := wrap32 (sampleSum rand.sample j)
      noiseStart := 0
      noiseEnd := rows
      noise := { ptr := (List.range j).map (fun i => (rand.sample i).toNat) ++ List.replicate (rows - j) 0
                 capacity := rows
                 right := j } })
    (Party.sampleStep rand) 0 rows { p with
      noiseCount := 0
      noiseStart := 0
      noiseEnd := rows
      noise := Batch.initialize rows 0 } (Nat.zero_le _) (by simp [sampleSum, Batch.initialize, wrap32]) (by
      rintro j p' - hj rfl
      refine ⟨_, ?_, rfl⟩
      unfold Party.sampleStep Batch.pushBack
      simp only
      have e : wrap32 (wrap32 (sampleSum rand.sample j) + (rand.sample j).toNat) = wrap32 (sampleSum rand.sample (j + 1)) := by
        rw [sampleSum_succ]
        unfold wrap32
        omega
      rw [wr_next (fun i => (rand.sample i).toNat) 0 hj, bind_ok, bind_ok,
        wrap32_of_lt (by omega : j + 1 < 2 ^ 32), e])
  rw [h1, h2, Nat.sub_self, List.replicate_zero, List.append_nil]

theorem noiseSamples_ok (p : Party box) (rand : PartyRand box) (rows : Nat) (hrnd : Noise.IsDivRounding rand.rnd)
    (hid : p.serverId = 0) (hsc : p.serverCount = 1) (hdb : p.db.size = rows) (hr0 : 0 < rows) (hr : rows < 2 ^ 32)
    (hn : sampleSum rand.sample rows < 2 ^ 32) :
    p.initializeNoiseSamples rand = .ok { p with
      noiseCount := sampleSum rand.sample rows
      noiseStart := 0
      noiseEnd := rows
      noise := { ptr := (List.range rows).map (fun i => (rand.sample i).toNat), capacity := rows, right := rows } } := by
  rw [noiseSamples_wrap p rand rows hrnd hid hsc hdb hr0 hr, wrap32_of_lt hn]

/-! ### Counts -/

theorem counts_ok (p : Party box) (back next : ι) (N : Nat) (h : N + p.noiseCount < 2 ^ 32) :
    Runs (p.initializeCounts back next) (aRecvCount back N ++ aSendCount next (N + p.noiseCount))
      { p with
        inputCount := N
        shuffledCount := N + p.noiseCount } := by
  refine Runs.bind (runs_readCount back N (by omega)) ?_
  rw [wrap32_of_lt h]
  exact Runs.bind' (runs_sendCount _ _) (Runs.done _) (List.append_nil _).symm

/-! ### Noise secrets -/

/-- The noise state serves tags and shares in order. -/
structure NoiseReady (s : ClientState) (count : Nat) (tag : Nat → BitVec 64) (shares : Nat → List Share) : Prop where
  read : s.readIdx = 0
  tags : ∀ j, j < count → ({ s with readIdx := j + 1 } : ClientState).getTag = .ok (tag j)
  shares : ∀ j, j < count → ({ s with readIdx := j + 1 } : ClientState).getIncrementalShares = .ok (shares j)

/-- The noise state after storing `j` of `count` secrets. -/
def noiseState (s0 : ClientState) (count j : Nat) (tag : Nat → BitVec 64) (shares : Nat → List Share) : ClientState :=
  { simulated := false
    writeIdx := j
    readIdx := 0
    size := count
    tags := (List.range j).map tag ++ List.replicate (count - j) 0
    incrementals := (List.range j).map shares ++ List.replicate (count - j) []
    preshares := s0.preshares }

theorem noiseState_add (s0 : ClientState) {count j : Nat} (tag : Nat → BitVec 64) (shares : Nat → List Share)
    (hj : j < count) (h32 : count < 2 ^ 32) :
    (noiseState s0 count j tag shares).addNoiseSecret (tag j) (shares j) =
      .ok (noiseState s0 count (j + 1) tag shares) := by
  unfold ClientState.addNoiseSecret
  simp only [noiseState]
  rw [wr_next tag 0 hj, bind_ok, wr_next shares [] hj, bind_ok, wrap32_of_lt (by omega)]

theorem noiseState_ready (s0 : ClientState) (count : Nat) (tag : Nat → BitVec 64) (shares : Nat → List Share)
    (h32 : count < 2 ^ 32) : NoiseReady (noiseState s0 count count tag shares) count tag shares := by
  have hcur : ∀ j, j < count → ∀ s : ClientState, s.simulated = false → s.readIdx = j + 1 → s.cur = j :=
    fun j hj s h1 h2 => cur_eq s j h1 h2 (by omega)
  refine ⟨rfl, ?_, ?_⟩
  · intro j hj
    unfold ClientState.getTag
    rw [hcur j hj _ rfl rfl, rd_eq_ok]
    simp [noiseState, hj]
  · intro j hj
    unfold ClientState.getIncrementalShares
    rw [hcur j hj _ rfl rfl, rd_eq_ok]
    simp [noiseState, hj]

/-- Tag of the `i`-th noise secret of a party with `N` inputs. -/
def noiseTag (N i : Nat) : BitVec 64 := BitVec.ofNat 64 (wrap32 (N + i))

theorem makeNoiseSecret_ok (p : Party box) (r : SecretRand box) (s0 : ClientState) (id count m : Nat)
    (tag : Nat → BitVec 64) (shares : Nat → List Share)
    (hst : p.noiseState = noiseState s0 count id tag shares) (hid : id < count) (h32 : count < 2 ^ 32)
    (hm : p.partyCount - p.partyId - 1 = m) (hm2 : m ≤ 255)
    (hsh : shares id = preIncrementalSecretShares r.shares m) :
    p.makeNoiseSecretTagged r (tag id) = .ok ({ p with noiseState := noiseState s0 count (id + 1) tag shares },
      (r.ticket m (tag id)).secrets) := by
  unfold Party.makeNoiseSecretTagged
  simp only
  rw [hm, generate_ok _ _ (by omega) (by omega), bind_ok, Nat.add_sub_cancel,
    show bxAll ((List.range m).map r.preshares) (fun _ => 0) = r.own m from rfl, buildSecrets_ticket, bind_ok]
  simp only
  rw [hst, ← hsh, noiseState_add s0 tag shares hid h32, bind_ok]

section
variable {pkeys : List box.PKey} {skeys : List box.SKey}

/-- The noise tickets of a party. -/
def noiseT (rand : PartyRand box) (m N i : Nat) : Ticket box := (rand.secret i).ticket m (noiseTag N i)

theorem noiseT_good (rand : PartyRand box) (m N i : Nat) : (noiseT rand m N i).Good m := SecretRand.ticket_good _ _ _

theorem createTagged_ok (hgood : GoodKeys box pkeys skeys) (hp : pkeys.length ≤ 255) (p : Party box)
    (rand : PartyRand box) (tagOf : Nat → Res (BitVec 64)) (tag : Nat → BitVec 64) (s0 : ClientState) (n N k m : Nat) (hpk : p.pkeys = pkeys) (hpc : p.partyCount = pkeys.length)
    (hpid : p.partyId = k) (hkm : k + m + 1 = pkeys.length) (hn : p.noiseCount = n) (hN : p.inputCount = N)
    (h32 : n < 2 ^ 32) (htag : ∀ i < n, tagOf i = .ok (tag i)) (hns : p.noiseState = s0.initialize m n true false)
    (hcS : p.ciphers.shortSize = cipherSize m) (hcL : p.ciphers.longSize = cipherSize (m + 1)) :
    ∃ b, p.createNoiseCiphersTagged tagOf rand = .ok { p with
        ciphers := b
        noiseState := noiseState s0 n n tag (fun i => preIncrementalSecretShares (rand.secret i).shares m) } ∧
      b.Holds ((List.range n).map (fun i => ((rand.secret i).ticket m (tag i)).cipher pkeys (k + 1))) [] ∧
      b.shortSize = cipherSize m ∧ b.longSize = cipherSize (m + 1) ∧
      b.mem.length = n * cipherSize m + N * cipherSize (m + 1) ∧ b.firstLong = n * cipherSize m := by
  let shares := fun i => preIncrementalSecretShares (rand.secret i).shares m
  obtain ⟨p', h1, b, h2, h3, h4, h5, h6, h7⟩ := forRange_inv (fun j (p' : Party box) => ∃ b, p' = { p with
        ciphers := b
        noiseState := noiseState s0 n j tag shares } ∧
      b.Holds ((List.range j).map (fun i => ((rand.secret i).ticket m (tag i)).cipher pkeys (k + 1))) [] ∧
      b.shortSize = cipherSize m ∧ b.longSize = cipherSize (m + 1) ∧
      b.mem.length = n * cipherSize m + N * cipherSize (m + 1) ∧ b.firstLong = n * cipherSize m)
    (Party.noiseCipherStep tagOf rand) 0 n { p with ciphers := p.ciphers.initialize p.noiseCount p.inputCount } (Nat.zero_le _)
    ⟨p.ciphers.initialize p.noiseCount p.inputCount, by
      rw [show noiseState s0 n 0 tag shares = p.noiseState by
        rw [hns]; simp [noiseState, ClientState.initialize]],
      CipherBatch.holds_initialize _ _ _, hcS, hcL, by
        simp only [CipherBatch.initialize, List.length_replicate, hcS, hcL, hn, hN], by
        simp only [CipherBatch.initialize, hcS, hn]⟩ (by
      rintro j p' - hj ⟨b, rfl, hb, hS, hL, hM, hF⟩
      have hlen := Ticket.cipher_length hgood hp (k := k + 1) (SecretRand.ticket_good (rand.secret j) m (tag j)) (by omega)
      have hroom : b.lastShort + b.shortSize ≤ b.firstLong := by
        rw [hb.lastShort, hF, hS, List.length_map, List.length_range]
        have : (j + 1) * cipherSize m ≤ n * cipherSize m := Nat.mul_le_mul_right _ hj
        have e : (j + 1) * cipherSize m = j * cipherSize m + cipherSize m := by ring
        omega
      obtain ⟨mem, g1, g2, g3⟩ := hb.pushShort (((rand.secret j).ticket m (tag j)).cipher pkeys (k + 1)) [] (by rw [hlen, hS]) hroom
      rw [List.append_nil] at g1
      refine ⟨{ p with
        ciphers := { b with
          mem := mem
          lastShort := b.lastShort + b.shortSize }
        noiseState := noiseState s0 n (j + 1) tag shares }, ?_, { b with
          mem := mem
          lastShort := b.lastShort + b.shortSize }, rfl, ?_, hS, hL, by rw [← hM, ← g2], hF⟩
      · unfold Party.noiseCipherStep
        simp only
        rw [htag j hj, bind_ok, makeNoiseSecret_ok _ (rand.secret j) s0 j n m tag shares rfl hj h32 (by simp only; omega) (by omega)
          rfl, bind_ok]
        simp only
        have := (Ticket.encrypt_eq hgood hp (k := k + 1) (SecretRand.ticket_good (rand.secret j) m (tag j)) (by omega) (rand.secret j).junk
          (rand.secret j).junk').1
        have e : onionEncrypt box (rand.secret j).coins (rand.secret j).junk (rand.secret j).junk'
          ((rand.secret j).ticket m (tag j)).secrets (p.partyId + 1) p.partyCount p.pkeys =
          .ok (((rand.secret j).ticket m (tag j)).cipher pkeys (k + 1)) := by rw [hpid, hpk, hpc]; exact this
        rw [e, bind_ok, g1, bind_ok]
      · rw [List.range_succ, List.map_append]
        exact g3)
  refine ⟨b, ?_, h3, h4, h5, h6, h7⟩
  subst hn
  unfold Party.createNoiseCiphersTagged
  rw [h1, h2]

theorem createNoiseCiphers_ok (hgood : GoodKeys box pkeys skeys) (hp : pkeys.length ≤ 255) (p : Party box)
    (rand : PartyRand box) (s0 : ClientState) (n N k m : Nat) (hpk : p.pkeys = pkeys) (hpc : p.partyCount = pkeys.length)
    (hpid : p.partyId = k) (hkm : k + m + 1 = pkeys.length) (hn : p.noiseCount = n) (hN : p.inputCount = N)
    (h32 : n < 2 ^ 32) (hns : p.noiseState = s0.initialize m n true false)
    (hcS : p.ciphers.shortSize = cipherSize m) (hcL : p.ciphers.longSize = cipherSize (m + 1)) :
    ∃ b, p.createNoiseCiphers rand = .ok { p with
        ciphers := b
        noiseState := noiseState s0 n n (noiseTag N) (fun i => preIncrementalSecretShares (rand.secret i).shares m) } ∧
      b.Holds ((List.range n).map (fun i => (noiseT rand m N i).cipher pkeys (k + 1))) [] ∧
      b.shortSize = cipherSize m ∧ b.longSize = cipherSize (m + 1) ∧
      b.mem.length = n * cipherSize m + N * cipherSize (m + 1) ∧ b.firstLong = n * cipherSize m := by
  refine createTagged_ok hgood hp p rand _ (noiseTag N) s0 n N k m hpk hpc hpid hkm hn hN h32 ?_ hns hcS hcL
  intro i _
  rw [← hN]; rfl

/-! ### Collecting and installing ciphers -/

theorem collectCiphers_ok (hgood : GoodKeys box pkeys skeys) (hp : pkeys.length ≤ 255) (p : Party box) (back : ι)
    (k m : Nat) (hkm : k + m + 1 = pkeys.length) (T : List (Ticket box)) (hT : ∀ t ∈ T, t.Good (m + 1))
    (shorts : List (List Byte)) (hb : p.ciphers.Holds shorts []) (hL : p.ciphers.longSize = cipherSize (m + 1))
    (hmem : p.ciphers.mem.length = p.ciphers.firstLong + T.length * cipherSize (m + 1)) (hN : p.inputCount = T.length) :
    ∃ b, Runs (p.collectCiphers back) (T.flatMap (fun t => aRecvCipher back (t.cipher pkeys k))) { p with ciphers := b } ∧
      b.Holds shorts (T.map (fun t => t.cipher pkeys k)) ∧ b.shortSize = p.ciphers.shortSize ∧
      b.longSize = p.ciphers.longSize ∧ b.firstLong = p.ciphers.firstLong := by
  obtain ⟨p', h1, b, rfl, h2, h3, h4, h5, -⟩ := Runs.loop_list (fun j (p' : Party box) => ∃ b, p' = { p with ciphers := b } ∧
      b.Holds shorts ((T.take j).map (fun t => t.cipher pkeys k)) ∧ b.shortSize = p.ciphers.shortSize ∧
      b.longSize = p.ciphers.longSize ∧ b.firstLong = p.ciphers.firstLong ∧ b.mem.length = p.ciphers.mem.length)
    (Party.collectCipher back) (fun t => aRecvCipher back (t.cipher pkeys k)) T 0 p
    ⟨p.ciphers, rfl, hb, rfl, rfl, rfl, rfl⟩ (by
      rintro j p' hj ⟨b, rfl, hb', e1, e2, e3, e4⟩
      have hlen := Ticket.cipher_length hgood hp (k := k) (hT T[j] (List.getElem_mem _)) (by omega)
      obtain ⟨mem, g1, g2, g3⟩ := hb'.pushLong (T[j].cipher pkeys k) (by rw [hlen, e2, hL]) (by
        rw [hb'.lastLong, e4, hmem, e3, e2, hL, List.length_map, List.length_take, Nat.min_eq_left (by omega)]
        have : (j + 1) * cipherSize (m + 1) ≤ T.length * cipherSize (m + 1) := Nat.mul_le_mul_right _ hj
        have e : (j + 1) * cipherSize (m + 1) = j * cipherSize (m + 1) + cipherSize (m + 1) := by ring
        omega)
      refine ⟨{ p with ciphers := { b with
          mem := mem
          lastLong := b.lastLong + b.longSize } }, ?_, { b with
          mem := mem
          lastLong := b.lastLong + b.longSize }, rfl, ?_, e1, e2, e3, by rw [← e4, ← g2]⟩
      · exact Runs.bind' (runs_recvCipher back _ _ (by rw [hlen]; exact (e2.trans hL).symm))
          (Runs.bind' (Runs.lift g1) (Runs.done _) rfl) (List.append_nil _).symm
      · rw [List.take_succ_eq_append_getElem hj, List.map_append]
        exact g3)
  rw [List.take_of_length_le (Nat.le_refl _)] at h2
  refine ⟨b, ?_, h2, h3, h4, h5⟩
  rw [← hN] at h1
  exact h1

theorem installLoop_ok (hgood : GoodKeys box pkeys skeys) (hp : pkeys.length ≤ 255) (k m : Nat)
    (hkm : k + m + 1 = pkeys.length) (T : List (Ticket box)) :
    ∀ (p : Party box) (fuel : Nat) (shorts : List (List Byte)), (∀ t ∈ T, t.Good (m + 1)) →
    p.partyId = k → p.partyCount = pkeys.length → pkeys[k]? = some p.pkey → skeys[k]? = some p.skey →
    p.ciphers.Holds shorts (T.map (fun t => t.cipher pkeys k)) → p.ciphers.shortSize = cipherSize m →
    p.ciphers.longSize = cipherSize (m + 1) → T.length ≤ fuel →
    (∀ t ∈ T, p.queriesState.secrets.lookup t.tag = none) → (T.map Ticket.tag).Nodup →
    ∃ b it, Runs (Party.installLoop fuel p : Prog ι _) (T.map (fun t => Act.obs (Obs.store t.head)))
        { p with
          ciphers := b
          queriesState := { p.queriesState with
            secrets := p.queriesState.secrets ++ T.map (fun t => OfflineSecret.entry t.head)
            it := it } } ∧
      b.Holds (shorts ++ T.map (fun t => t.next.cipher pkeys (k + 1))) [] ∧ b.shortSize = cipherSize m ∧
      b.firstLong = p.ciphers.firstLong + T.length * cipherSize (m + 1) := by
  induction T with
  | nil =>
    intro p fuel shorts _ _ _ _ _ hb hS _ _ _ _
    refine ⟨p.ciphers, p.queriesState.it, ?_, by simpa using hb, hS, by simp⟩
    have : (Party.installLoop fuel p : Prog ι _) = .done p := by
      cases fuel <;> simp [Party.installLoop, hb.empty]
    rw [this, List.map_nil, List.map_nil, List.append_nil]
    exact Runs.done _
  | cons t T ih =>
    intro p fuel shorts hT hid hpc hpk hsk hb hS hL hf hno hnd
    obtain ⟨fuel, rfl⟩ : ∃ f, fuel = f + 1 := ⟨fuel - 1, by simp at hf; omega⟩
    have hSL : cipherSize m ≤ cipherSize (m + 1) := Nat.mul_le_mul_left _ (by omega)
    have hLpos : 0 < cipherSize (m + 1) := Nat.mul_pos (by decide) (by omega)
    have htg := hT t List.mem_cons_self
    obtain ⟨g1, ⟨tail, g2⟩, g3⟩ := Holds.popLong (v := t.cipher pkeys k) (rest := T.map (fun t => t.cipher pkeys k)) hb
    obtain ⟨layer, l1, l2, l3⟩ := Ticket.peel hgood hp (k := k) (m := m) htg (by omega) tail p.pkey p.skey hpk hsk
    have hlen := Ticket.cipher_length hgood hp (k := k + 1) htg.next (by omega)
    obtain ⟨mem, c1, -, c3⟩ := g3.pushShort (t.next.cipher pkeys (k + 1)) [] (hlen.trans hS.symm) (by
      have := hb.room
      show p.ciphers.lastShort + p.ciphers.shortSize ≤ p.ciphers.firstLong + p.ciphers.longSize
      omega)
    rw [List.append_nil] at c1
    have hst : p.queriesState.store t.head = .ok { p.queriesState with
        secrets := p.queriesState.secrets ++ [OfflineSecret.entry t.head]
        it := none } := by
      unfold PartyState.store
      have : t.head.tag = t.tag := rfl
      rw [this, hno t List.mem_cons_self]
      rfl
    rw [List.map_cons, List.nodup_cons] at hnd
    obtain ⟨b, it, r1, r2, r3, r4⟩ := ih { p with
        ciphers := { p.ciphers.popLong.2 with
          mem := mem
          lastShort := p.ciphers.popLong.2.lastShort + p.ciphers.popLong.2.shortSize }
        queriesState := { p.queriesState with
          secrets := p.queriesState.secrets ++ [OfflineSecret.entry t.head]
          it := none } } fuel (shorts ++ [t.next.cipher pkeys (k + 1)])
      (fun t' h' => hT t' (List.mem_cons_of_mem _ h')) hid hpc hpk hsk c3 hS hL (by simp at hf; omega)
      (by
        intro t' ht'
        simp only
        rw [List.lookup_append, hno t' (List.mem_cons_of_mem _ ht')]
        apply lookup_eq_none_of
        intro e he heq
        rw [List.mem_singleton] at he
        subst he
        exact hnd.1 (List.mem_map.2 ⟨t', ht', heq.symm⟩)) hnd.2
    refine ⟨b, it, ?_, ?_, r3, ?_⟩
    · unfold Party.installLoop
      have hh : p.ciphers.hasLong = true := by rw [g1, hL]; simpa using hLpos
      rw [if_pos hh]
      have hd : onionDecrypt box p.ciphers.popLong.1 (p.partyCount - p.partyId) p.pkey p.skey = .ok layer := by
        rw [g2, hpc, hid, ← l1]
        congr 1
        omega
      rw [← l3] at c1
      refine Runs.bind' (Runs.lift hd) (Runs.bind' (Runs.lift l2) (Runs.bind' (Runs.observe _) (Runs.bind' (Runs.lift hst)
        (Runs.bind' (Runs.lift c1) ?_ (List.nil_append _).symm) (List.nil_append _).symm) rfl)
          (List.nil_append _).symm) (List.nil_append _).symm
      simp only [List.append_assoc, List.singleton_append] at r1
      exact r1
    · rw [List.map_cons, List.append_cons]
      exact r2
    · rw [r4, List.length_cons, Nat.succ_mul]
      show p.ciphers.firstLong + p.ciphers.longSize + _ = _
      omega

/-- The party's state serves the query's secret. -/
structure PartyServes (s : PartyState) (q : QTicket) : Prop where
  tag : (s.loadSecret q.tag).getNextTag = .ok q.tag
  share : (s.loadSecret q.tag).getIncremental = .ok (q.shares.headD ⟨0, 1⟩)
  pre : s.getPreshare q.tag = .ok (q.pres.headD (fun _ => 0))

theorem partyServes_it (s : PartyState) (x : Option PartySecret) (q : QTicket) :
    PartyServes { s with it := x } q ↔ PartyServes s q := ⟨fun h => ⟨h.1, h.2, h.3⟩, fun h => ⟨h.1, h.2, h.3⟩⟩

theorem serves_of_secrets (T : List (Ticket box)) (hnd : (T.map Ticket.tag).Nodup) (it : Option PartySecret) (q : QTicket)
    (h : ∃ t ∈ T, t.tag = q.tag ∧ t.shares = q.shares ∧ t.pres = q.pres) :
    PartyServes { simulated := false, secrets := T.map (fun t => OfflineSecret.entry t.head), it := it } q := by
  obtain ⟨t, ht, e1, e2, e3⟩ := h
  have hl : (T.map (fun t => OfflineSecret.entry t.head)).lookup q.tag =
      some ⟨q.tag, q.shares.headD ⟨0, 1⟩, q.pres.headD (fun _ => 0)⟩ := by
    have := lookup_map_of_nodup T Ticket.tag
      (fun t => (⟨t.tag, t.shares.headD ⟨0, 1⟩, t.pres.headD (fun _ => 0)⟩ : PartySecret)) hnd t ht
    rw [← e1, ← e2, ← e3]
    exact this
  constructor <;> simp [PartyState.loadSecret, PartyState.getNextTag, PartyState.getIncremental, PartyState.getPreshare, hl, deref]

theorem sendCiphers_ok (p : Party box) (next : ι) (shorts : List (List Byte)) (hb : p.ciphers.Holds shorts [])
    (hs : p.shuffledCount = shorts.length) (hf : p.shuffler.forward.Perm (List.range shorts.length))
    (hz : 0 < p.ciphers.shortSize) (hz2 : p.ciphers.shortSize ≤ Sockets.bufferSize) :
    ∃ sc, Runs (p.sendCiphers next) sc
      { p with
        shuffler := p.shuffler.finishForward
        ciphers := p.ciphers.free } ∧
      Sends next sc (p.shuffler.forward.flatMap (fun i => shorts.getD i []))
        (p.shuffler.forward.map (fun i => .sendCipher (shorts.getD i []))) := by
  obtain ⟨as, w', h1, -, h3, h4⟩ := loop_buffered next id (fun _ (w : WBuf) => w.Room p.ciphers.shortSize) (p.sendCipherStep next)
    (fun i => shorts.getD i []) (fun i => [.sendCipher (shorts.getD i [])]) p.shuffler.forward 0 {} (WBuf.room_empty hz hz2) (by
      intro j w hj hw
      have hlt : p.shuffler.forward[j] < shorts.length := by
        have := hf.mem_iff.1 (List.getElem_mem hj)
        simpa using this
      have h1 : p.shuffler.shuffle (0 + j) = .ok p.shuffler.forward[j] := by
        rw [Nat.zero_add]; exact rd_ok hj
      have h2 := hb.getShort _ hlt
      obtain ⟨as, w', h3, h4, h5, h6⟩ := sendCipher_ok next _ _ _ h2 hz hz2 w hw
      rw [List.getD_eq_getElem _ _ hlt]
      exact ⟨as, w', Runs.bind' (Runs.lift h1) h3 rfl, h4, h5, h6⟩)
  rw [hf.length_eq, List.length_range, ← hs] at h1
  obtain ⟨h5, h6⟩ := h3.flush h4
  refine ⟨as ++ w'.pending.map (Act.send next), Runs.bind h1 (Runs.bind' h5 (Runs.done _) (List.append_nil _).symm), ?_⟩
  exact h6.singles

end

end DPPIR.Protocol
