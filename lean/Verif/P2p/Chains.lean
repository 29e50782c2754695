import Verif.P2p.Payloads
/-!
# Chains of headers, chains of filter headers, the final alert

`H` is `sha256d`.
-/
namespace Btc
namespace P2p

/-- `HeadersMessage::is_connected` (message.rs 1591-1596). -/
def isConnected (H : Bytes → Arr 32) (l : List NetHeader) : Bool :=
  (l.zip (l.drop 1)).all fun p => p.1.header.blockHash H = p.2.header.prev
/-- `HeadersMessage::into_headers` (message.rs 1599-1601). -/
def intoHeaders (l : List NetHeader) : List Header := l.map (·.header)

/-- `BlockFilter::filter_hash` (bitcoin/src/bip158.rs 92). -/
def filterHash (H : Bytes → Arr 32) (content : Bytes) : Arr 32 := H content
/-- `FilterHash::filter_header` (message_filter.rs 42-47): the engine is fed the hash, then the previous header. -/
def filterHeader (H : Bytes → Arr 32) (h previous : Arr 32) : Arr 32 := H (h.1 ++ previous.1)
/-- How a client uses it: the filter header after the filters `fs`, starting from the header `g`. -/
def filterChain (H : Bytes → Arr 32) (g : Arr 32) (fs : List Bytes) : Arr 32 :=
  fs.foldl (fun prev f => filterHeader H (filterHash H f) prev) g

/-- `Alert::FINAL_ALERT` (message_network.rs 540-546). -/
def FINAL_ALERT : Bytes :=
  [1, 0, 0, 0, 0, 0, 0, 0, 0, 0, 0, 0, 255, 255, 255, 127, 0, 0, 0, 0, 255, 255, 255, 127,
   254, 255, 255, 127, 1, 255, 255, 255, 127, 0, 0, 0, 0, 255, 255, 255, 127, 0, 255, 255,
   255, 127, 0, 47, 85, 82, 71, 69, 78, 84, 58, 32, 65, 108, 101, 114, 116, 32, 107, 101, 121,
   32, 99, 111, 109, 112, 114, 111, 109, 105, 115, 101, 100, 44, 32, 117, 112, 103, 114, 97,
   100, 101, 32, 114, 101, 113, 117, 105, 114, 101, 100, 0]
/-- `Alert::final_alert` (549). -/
def finalAlert : Bytes := FINAL_ALERT
/-- `Alert::is_final_alert` (553). -/
def isFinalAlert (a : Bytes) : Bool := a = FINAL_ALERT

end P2p
end Btc
