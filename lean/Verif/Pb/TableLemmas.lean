import Verif.Pb.StreamFields
import Verif.Pb.Tables

/-!
# The nanopb tables refine the message formats
-/

namespace Ecal.Pb

open Ecal.Wire

variable {α : Type}

def Sorted (fs : List (Field α)) : Prop := (fs.map (·.tag)).Pairwise (· < ·)

instance (fs : List (Field α)) : Decidable (Sorted fs) := inferInstanceAs (Decidable (List.Pairwise _ _))

theorem rInt64 (tag : Nat) (get : α → BitVec 64) (set : α → BitVec 64 → α) :
    Refines (fInt64 tag set) (int64L tag get set).field := refines_int64 tag set _ rfl (fun _ _ => rfl)

theorem rInt32 (tag : Nat) (get : α → BitVec 32) (set : α → BitVec 32 → α) :
    Refines (fInt32 tag set) (int32L tag get set).field := refines_int32 tag set _ rfl (fun _ _ => rfl)

theorem rUint32 (tag : Nat) (get : α → BitVec 32) (set : α → BitVec 32 → α) :
    Refines (fUint32 tag set) (uint32L tag get set).field :=
  refines_uint32 tag set _ rfl (fun _ r => by simp only [uint32L, uint32F]; cases asVarint r <;> rfl)

theorem rBool (tag : Nat) (get : α → Bool) (set : α → Bool → α) :
    Refines (fBool tag set) (boolL tag get set).field :=
  refines_bool tag set _ rfl (fun _ r => by cases r <;> rfl)

theorem rStr (tag : Nat) (get : α → Bytes) (set : α → Bytes → α) :
    Refines (fStr tag set) (strL tag get set).field :=
  refines_callback tag _ _ (cbString_whole set).weak _ rfl
    (fun st r => by simp only [strL, strF]; cases callbackBytes r <;> rfl)

theorem rBytes (tag : Nat) (get : α → Bytes) (set : α → Bytes → α) :
    Refines (fStr tag set) (bytesL tag get set).field :=
  refines_callback tag _ _ (cbString_whole set).weak _ rfl
    (fun st r => by simp only [bytesL, bytesF]; cases callbackBytes r <;> rfl)

theorem rStrList (tag : Nat) (get : α → List Bytes) (set : α → List Bytes → α) (put : α → Bytes → α)
    (h : ∀ m v, put m v = set m (get m ++ [v])) : Refines (fStr tag put) (strListL tag get set).field :=
  refines_callback tag _ _ (cbString_whole put).weak _ rfl
    (fun st r => by simp only [strListL, strListF]; cases callbackBytes r <;> simp [h])

theorem rIgnored (tag : Nat) : Refines (noCb tag : PbField α) (ignoredL tag).field :=
  refines_callback tag _ _ cbNone_none _ rfl
    (fun st r => by simp only [ignoredL, ignoredF]; cases callbackBytes r <;> rfl)

theorem rNoInt32 (tag : Nat) : Refines (noInt32 tag : PbField α) (dropIntL tag).field :=
  refines_int32 tag _ _ rfl (fun _ _ => rfl)

theorem rNoInt64 (tag : Nat) : Refines (noInt64 tag : PbField α) (dropIntL tag).field :=
  refines_int64 tag _ _ rfl (fun _ _ => rfl)

theorem rNoUint32 (tag : Nat) : Refines (noUint32 tag : PbField α) (dropUintL tag).field :=
  refines_uint32 tag _ _ rfl (fun _ _ => rfl)

theorem rNoBool (tag : Nat) : Refines (noBool tag : PbField α) (dropBoolL tag).field :=
  refines_bool tag _ _ rfl (fun _ r => by cases r <;> rfl)

theorem rSub (tag : Nat) (pfs : List (PbField α)) (c : List (LField α)) (present : α → Bool)
    (h : RefList pfs (c.map (·.field))) (hs : Sorted (c.map (·.field))) :
    Refines (fSub tag pfs) (subL tag c present).field :=
  refines_sub tag _ _ (decodeMsg_whole h hs) _ rfl (fun _ r => by cases r <;> rfl)

theorem rElem {β} (tag : Nat) (pfs : List (PbField β)) (c : List (LField β)) (init : β) (add : α → β → α)
    (h : RefList pfs (c.map (·.field))) (hs : Sorted (c.map (·.field))) (f : Field α) (ht : f.tag = tag)
    (hd : ∀ st r, f.dec st r = (callbackBytes r).bind (fun b => (decode (c.map (·.field)) init b).map (add st))) :
    Refines (fElem tag pfs init add) f :=
  refines_callback tag _ _ (cbElem_whole h hs init add).weak f ht hd

theorem rRep {β} (tag : Nat) (pfs : List (PbField β)) (c : List (LField β)) (init : β) (get : α → List β)
    (set : α → List β → α) (add : α → β → α) (hadd : ∀ m e, add m e = set m (get m ++ [e]))
    (h : RefList pfs (c.map (·.field))) (hs : Sorted (c.map (·.field))) :
    Refines (fElem tag pfs init add) (repL tag c init get set).field :=
  rElem tag pfs c init add h hs _ rfl (fun st r => by
    simp only [repL, repF]
    cases callbackBytes r with
    | none => rfl
    | some b =>
      simp only [Option.bind_some]
      cases decode (c.map (·.field)) init b <;> simp [hadd])

/-! ### Tables -/

/-- Fields without sub-messages. -/
macro "ref_one" : tactic =>
  `(tactic| first
    | exact rNoInt32 _ | exact rNoInt64 _ | exact rNoUint32 _ | exact rNoBool _ | exact rIgnored _
    | exact rStr _ _ _ | exact rBytes _ _ _ | exact rInt32 _ _ _ | exact rUint32 _ _ _ | exact rInt64 _ _ _
    | exact rBool _ _ _)

macro "ref_list" : tactic =>
  `(tactic| repeat' (first | exact RefList.nil | refine RefList.cons ?_ ?_ | ref_one))

theorem host_ref : RefList (hostNone : List (PbField α)) (hostDrop.map (·.field)) := by
  simp only [hostNone, hostDrop, List.map_cons, List.map_nil]
  ref_list
  exact rSub _ _ _ _ (by ref_list) (by simp [Sorted])

theorem process_ref : RefList (processNone : List (PbField α)) (processDrop.map (·.field)) := by
  simp only [processNone, processDrop, List.map_cons, List.map_nil]
  ref_list
  exact rSub _ _ _ _ (by ref_list) (by simp [Sorted, dropUintL, ignoredL, ignoredF])

theorem service_ref : RefList (serviceNone : List (PbField α)) (serviceDrop.map (·.field)) := by
  simp only [serviceNone, serviceDrop, List.map_cons, List.map_nil]
  ref_list

theorem client_ref : RefList (clientNone : List (PbField α)) (clientDrop.map (·.field)) := by
  simp only [clientNone, clientDrop, List.map_cons, List.map_nil]
  ref_list

theorem content_ref : RefList content (contentL.map (·.field)) := by
  simp only [content, contentL, List.map_cons, List.map_nil]
  ref_list

theorem payloadTopic_ref : RefList payloadTopic (payloadTopicL.map (·.field)) := by
  simp only [payloadTopic, payloadTopicL, List.map_cons, List.map_nil]
  ref_list
  exact rSub _ _ _ _ (by ref_list) (by decide)

theorem payload_ref : RefList payloadPb payloadCodec := by
  simp only [payloadPb, payloadCodec, payloadL, List.map_cons, List.map_nil]
  ref_list
  · exact rSub _ _ _ _ host_ref (by decide)
  · exact rSub _ _ _ _ process_ref (by decide)
  · exact rSub _ _ _ _ service_ref (by decide)
  · exact rSub _ _ _ _ payloadTopic_ref (by decide)
  · exact rSub _ _ _ _ content_ref (by decide)
  · exact rSub _ _ _ _ client_ref (by decide)


theorem layer_ref : RefList layerPb (layerL.map (·.field)) := by
  simp only [layerPb, layerL, List.map_cons, List.map_nil]
  ref_list
  refine rSub _ _ _ _ ?_ (by decide)
  simp only [List.map_cons, List.map_nil]
  ref_list
  · exact rSub _ _ _ _ .nil (by decide)
  · refine rSub _ _ _ _ (.cons ?_ .nil) (by decide)
    exact rStrList _ _ _ _ (fun _ _ => rfl)
  · exact rSub _ _ _ _ (by ref_list) (by decide)

theorem method_ref : RefList methodPb (methodL.map (·.field)) := by
  simp only [methodPb, methodL, List.map_cons, List.map_nil]
  ref_list

theorem attr_ref : RefList attrPb (attrEntryL.map (·.field)) := by
  simp only [attrPb, attrEntryL, List.map_cons, List.map_nil]
  ref_list

theorem rMap (tag : Nat) (get : α → List (Bytes × Bytes)) (set : α → List (Bytes × Bytes) → α)
    (add : α → Bytes × Bytes → α) (hadd : ∀ m e, add m e = set m (mapInsert (get m) e)) :
    Refines (fElem tag attrPb ([], []) add) (mapL tag get set).field :=
  rElem tag _ attrEntryL _ add attr_ref (by decide) _ rfl (fun st r => by
    simp only [mapL]
    cases callbackBytes r with
    | none => rfl
    | some b =>
      simp only [Option.bind_some]
      cases decode (attrEntryL.map (·.field)) ([], []) b <;> simp [hadd])

theorem rProcess_ref : RefList rProcess (regProcessL.map (·.field)) := by
  simp only [rProcess, regProcessL, List.map_cons, List.map_nil]
  ref_list
  exact rSub _ _ _ _ (by simp only [regProcessStateL, List.map_cons, List.map_nil]; ref_list) (by decide)

theorem rService_ref : RefList rService (regServiceL.map (·.field)) := by
  simp only [rService, regServiceL, List.map_cons, List.map_nil]
  ref_list
  exact rRep _ _ _ _ _ _ _ (fun _ _ => rfl) method_ref (by decide)

theorem rClient_ref : RefList rClient (regClientL.map (·.field)) := by
  simp only [rClient, regClientL, List.map_cons, List.map_nil]
  ref_list
  exact rRep _ _ _ _ _ _ _ (fun _ _ => rfl) method_ref (by decide)

theorem rTopic_ref : RefList rTopic (regTopicL.map (·.field)) := by
  simp only [rTopic, regTopicL, List.map_cons, List.map_nil]
  ref_list
  · exact rRep _ _ _ _ _ _ _ (fun _ _ => rfl) layer_ref (by decide)
  · exact rMap _ _ _ _ (fun _ _ => rfl)
  · exact rSub _ _ _ _ (by simp only [regDatatypeL, List.map_cons, List.map_nil]; ref_list) (by decide)

theorem reg_ref : RefList regPb (regL.map (·.field)) := by
  simp only [regPb, regL, List.map_cons, List.map_nil]
  ref_list
  · refine rSub _ _ _ _ ?_ (by decide)
    simp only [regHostL, List.map_cons, List.map_nil]
    ref_list
    exact rSub _ _ _ _ (by ref_list) (by decide)
  · exact rSub _ _ _ _ rProcess_ref (by decide)
  · exact rSub _ _ _ _ rService_ref (by decide)
  · exact rSub _ _ _ _ rTopic_ref (by decide)
  · exact rSub _ _ _ _ (by ref_list) (by decide)
  · exact rSub _ _ _ _ rClient_ref (by decide)

theorem regList_ref :
    RefList regListPb [{ tag := 1, enc := fun l => l.map (fun m => .len (serializeReg m)), dec := appendSample }] := by
  refine .cons ?_ .nil
  refine rElem 1 _ regL _ _ reg_ref (by decide) _ rfl (fun st r => ?_)
  simp only [appendSample]
  cases callbackBytes r <;> rfl

theorem request_ref : RefList requestPb (requestL.map (·.field)) := by
  simp only [requestPb, requestL, List.map_cons, List.map_nil]
  ref_list
  refine rSub _ _ _ _ ?_ (by decide)
  simp only [headerPb, requestHeaderL, serviceHeaderL, List.map_cons, List.map_nil]
  ref_list

theorem response_ref : RefList responsePb (responseL.map (·.field)) := by
  simp only [responsePb, responseL, List.map_cons, List.map_nil]
  ref_list
  refine rSub _ _ _ _ ?_ (by decide)
  simp only [headerPb, responseHeaderL, serviceHeaderL, List.map_cons, List.map_nil]
  ref_list

theorem log_ref : RefList logPb (logL.map (·.field)) := by
  simp only [logPb, logL, List.map_cons, List.map_nil]
  ref_list

theorem logList_ref : RefList logListPb (logListL.map (·.field)) := by
  refine .cons ?_ .nil
  exact rRep _ _ _ _ _ _ _ (fun _ _ => rfl) log_ref (by decide)

theorem mProcess_ref : RefList mProcess (monProcessL.map (·.field)) := by
  simp only [mProcess, monProcessL, List.map_cons, List.map_nil]
  ref_list
  exact rSub _ _ _ _ (by simp only [monStateL, List.map_cons, List.map_nil]; ref_list) (by decide)

theorem mLayer_ref : RefList mLayer (monLayerL.map (·.field)) := by
  simp only [mLayer, monLayerL, List.map_cons, List.map_nil]
  ref_list
  refine rSub _ _ _ _ ?_ (by decide)
  simp only [List.map_cons, List.map_nil]
  ref_list
  · exact rSub _ _ _ _ .nil (by decide)
  · exact rSub _ _ _ _ (by ref_list) (by decide)
  · exact rSub _ _ _ _ (by ref_list) (by decide)

theorem mTopic_ref : RefList mTopic (monTopicL.map (·.field)) := by
  simp only [mTopic, monTopicL, List.map_cons, List.map_nil]
  ref_list
  · exact rRep _ _ _ _ _ _ _ (fun _ _ => rfl) mLayer_ref (by decide)
  · exact rMap _ _ _ _ (fun _ _ => rfl)
  · exact rSub _ _ _ _ (by simp only [monDatatypeL, List.map_cons, List.map_nil]; ref_list) (by decide)

theorem mServer_ref : RefList mServer (monServerL.map (·.field)) := by
  simp only [mServer, monServerL, List.map_cons, List.map_nil]
  ref_list
  exact rRep _ _ _ _ _ _ _ (fun _ _ => rfl) method_ref (by decide)

theorem mClient_ref : RefList mClient (monClientL.map (·.field)) := by
  simp only [mClient, monClientL, List.map_cons, List.map_nil]
  ref_list
  exact rRep _ _ _ _ _ _ _ (fun _ _ => rfl) method_ref (by decide)

theorem mon_ref : RefList monPb (monL.map (·.field)) := by
  simp only [monPb, monL, List.map_cons, List.map_nil]
  ref_list
  · exact rRep _ _ _ _ _ _ _ (fun _ _ => rfl) mProcess_ref (by decide)
  · exact rRep _ _ _ _ _ _ _ (fun _ _ => rfl) mServer_ref (by decide)
  · refine rElem 4 _ monTopicL _ _ mTopic_ref (by decide) _ rfl (fun st r => ?_)
    simp only [monTopicsL]
    cases callbackBytes r <;> rfl
  · exact rRep _ _ _ _ _ _ _ (fun _ _ => rfl) mClient_ref (by decide)

end Ecal.Pb
