import Verif.PubCtx
import Verif.SubCtx

/-!
# The accessors of the two contexts

rmc_pub_context.c, rmc_sub_context.c, rmc_pub_packet.c, rmc_sub_packet.c. None of them changes anything. The null checks are not modelled.
-/

namespace Rmc

namespace PubCtx

/-- rmc_pub_packet.c:72-78 `rmc_pub_queue_length`, pub.c:168-173 `pub_queue_size`. -/
def queueLength (c : PubCtx) : Nat := Pub.queueSize c.pub

/-- rmc_pub_context.c:442-451 `rmc_pub_get_max_subscriber_count`, rmc_connection.c:478-486 `rmc_conn_get_vector_size`. -/
def maxSubscriberCount (c : PubCtx) : Nat := c.cv.size

/-- rmc_pub_context.c:425-431 `rmc_pub_node_id`. -/
def getNodeId (c : PubCtx) : Nat := c.nodeId

/-- rmc_pub_context.c:339-350 `rmc_pub_set_multicast_ttl`; `r` is what setsockopt() does (0 or errno). The value goes to the kernel only. -/
def setTtl (c : PubCtx) (r : Nat) : Nat := if c.mcast = none then ENOTCONN else r

end PubCtx

namespace SubCtx

/-- rmc_sub_context.c:329-338 `rmc_sub_get_max_publisher_count`. -/
def maxPublisherCount (c : SubCtx) : Nat := c.cv.size

/-- rmc_sub_context.c:320-326 `rmc_sub_node_id`. -/
def getNodeId (c : SubCtx) : Nat := c.nodeId

/-- rmc_sub_packet.c:141-147 `rmc_sub_packet_index`, sub.c:190-193 `sub_packet_user_data`. -/
def packetIndex (p : SPkt) : Nat := p.slot

/-- rmc_sub_packet.c:149-155 `rmc_sub_packet_payload_len`. -/
def packetPayloadLen (p : SPkt) : Nat := p.payload.data.length

/-- rmc_sub_packet.c:157-163 `rmc_sub_packet_payload`. -/
def packetPayload (p : SPkt) : Nat := p.payload.ptr

end SubCtx
end Rmc
