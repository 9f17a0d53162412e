import Verif.Spec.Chain

/-!
# Vocabulary for the preparation of a deployment
-/

namespace DPPIR.Protocol

/-- Calls that prepare for queries: counts, ready messages, ciphers, secrets. -/
def Obs.prepares : Obs → Bool
  | .sendCount _ | .recvCount _ | .sendReady | .recvReady | .sendCipher _ | .recvCipher _ | .store _ => true
  | .sendQuery _ | .recvQuery _ | .sendResponse _ | .recvResponse _ | .lookup _ | .want _ | .result _ => false

/-- The calls of a record that prepare for queries, in order. -/
def preparation (l : List Obs) : List Obs := l.filter Obs.prepares

end DPPIR.Protocol
