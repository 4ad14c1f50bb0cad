import Verif.Model.HeapBook

/-! # Specification vocabulary for slices in shared memory -/

namespace Finmod.Spec
open Go Go.Heap

/-- The memory `h` and the headers `hb` show the book `b`, with the two sides in different places. -/
structure Shows (h : Heap Row) (hb : HBook) (b : Book) : Prop where
  time : hb.time = b.time
  depth : hb.maxDepth = b.maxDepth
  asks : h.load hb.asks = b.asks
  bids : h.load hb.bids = b.bids
  wfa : WF h hb.asks
  wfb : WF h hb.bids
  sep : hb.asks.Separate hb.bids

end Finmod.Spec
