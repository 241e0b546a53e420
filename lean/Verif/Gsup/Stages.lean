import Verif.Gsup.Groups
/-!
C130: what one side encodes, the other side decodes to the same message.
-/
namespace Verif.Gsup

/-! ## What is decoded after each of the IEs -/

def st0 (m : Msg) : Msg :=
  { messageType := m.messageType, imsi := m.imsi }

def st1 (m : Msg) : Msg :=
  { messageType := m.messageType, imsi := m.imsi,
    msisdn := m.msisdn }

def st2 (m : Msg) : Msg :=
  { messageType := m.messageType, imsi := m.imsi,
    msisdn := m.msisdn,
    hlr := m.hlr }

def st3 (m : Msg) : Msg :=
  { messageType := m.messageType, imsi := m.imsi,
    msisdn := m.msisdn,
    hlr := m.hlr,
    cause := m.cause }

def st4 (m : Msg) : Msg :=
  { messageType := m.messageType, imsi := m.imsi,
    msisdn := m.msisdn,
    hlr := m.hlr,
    cause := m.cause,
    cancelType := m.cancelType }

def st5 (m : Msg) : Msg :=
  { messageType := m.messageType, imsi := m.imsi,
    msisdn := m.msisdn,
    hlr := m.hlr,
    cause := m.cause,
    cancelType := m.cancelType,
    pdpInfoCompl := m.pdpInfoCompl }

def st6 (m : Msg) : Msg :=
  { messageType := m.messageType, imsi := m.imsi,
    msisdn := m.msisdn,
    hlr := m.hlr,
    cause := m.cause,
    cancelType := m.cancelType,
    pdpInfoCompl := m.pdpInfoCompl,
    freezePtmsi := m.freezePtmsi }

def st7 (m : Msg) : Msg :=
  { messageType := m.messageType, imsi := m.imsi,
    msisdn := m.msisdn,
    hlr := m.hlr,
    cause := m.cause,
    cancelType := m.cancelType,
    pdpInfoCompl := m.pdpInfoCompl,
    freezePtmsi := m.freezePtmsi,
    pdpInfos := m.pdpInfos,
    numPdp := m.numPdp }

def st8 (m : Msg) : Msg :=
  { messageType := m.messageType, imsi := m.imsi,
    msisdn := m.msisdn,
    hlr := m.hlr,
    cause := m.cause,
    cancelType := m.cancelType,
    pdpInfoCompl := m.pdpInfoCompl,
    freezePtmsi := m.freezePtmsi,
    pdpInfos := m.pdpInfos,
    numPdp := m.numPdp,
    authVecs := m.authVecs,
    numAuth := m.numAuth }

def st9 (m : Msg) : Msg :=
  { messageType := m.messageType, imsi := m.imsi,
    msisdn := m.msisdn,
    hlr := m.hlr,
    cause := m.cause,
    cancelType := m.cancelType,
    pdpInfoCompl := m.pdpInfoCompl,
    freezePtmsi := m.freezePtmsi,
    pdpInfos := m.pdpInfos,
    numPdp := m.numPdp,
    authVecs := m.authVecs,
    numAuth := m.numAuth,
    auts := m.auts }

def st10 (m : Msg) : Msg :=
  { messageType := m.messageType, imsi := m.imsi,
    msisdn := m.msisdn,
    hlr := m.hlr,
    cause := m.cause,
    cancelType := m.cancelType,
    pdpInfoCompl := m.pdpInfoCompl,
    freezePtmsi := m.freezePtmsi,
    pdpInfos := m.pdpInfos,
    numPdp := m.numPdp,
    authVecs := m.authVecs,
    numAuth := m.numAuth,
    auts := m.auts,
    rand := m.rand }

def st11 (m : Msg) : Msg :=
  { messageType := m.messageType, imsi := m.imsi,
    msisdn := m.msisdn,
    hlr := m.hlr,
    cause := m.cause,
    cancelType := m.cancelType,
    pdpInfoCompl := m.pdpInfoCompl,
    freezePtmsi := m.freezePtmsi,
    pdpInfos := m.pdpInfos,
    numPdp := m.numPdp,
    authVecs := m.authVecs,
    numAuth := m.numAuth,
    auts := m.auts,
    rand := m.rand,
    pco := m.pco }

def st12 (m : Msg) : Msg :=
  { messageType := m.messageType, imsi := m.imsi,
    msisdn := m.msisdn,
    hlr := m.hlr,
    cause := m.cause,
    cancelType := m.cancelType,
    pdpInfoCompl := m.pdpInfoCompl,
    freezePtmsi := m.freezePtmsi,
    pdpInfos := m.pdpInfos,
    numPdp := m.numPdp,
    authVecs := m.authVecs,
    numAuth := m.numAuth,
    auts := m.auts,
    rand := m.rand,
    pco := m.pco,
    cnDomain := m.cnDomain }

def st13 (m : Msg) : Msg :=
  { messageType := m.messageType, imsi := m.imsi,
    msisdn := m.msisdn,
    hlr := m.hlr,
    cause := m.cause,
    cancelType := m.cancelType,
    pdpInfoCompl := m.pdpInfoCompl,
    freezePtmsi := m.freezePtmsi,
    pdpInfos := m.pdpInfos,
    numPdp := m.numPdp,
    authVecs := m.authVecs,
    numAuth := m.numAuth,
    auts := m.auts,
    rand := m.rand,
    pco := m.pco,
    cnDomain := m.cnDomain,
    pdpCharg := m.pdpCharg }

def st14 (m : Msg) : Msg :=
  { messageType := m.messageType, imsi := m.imsi,
    msisdn := m.msisdn,
    hlr := m.hlr,
    cause := m.cause,
    cancelType := m.cancelType,
    pdpInfoCompl := m.pdpInfoCompl,
    freezePtmsi := m.freezePtmsi,
    pdpInfos := m.pdpInfos,
    numPdp := m.numPdp,
    authVecs := m.authVecs,
    numAuth := m.numAuth,
    auts := m.auts,
    rand := m.rand,
    pco := m.pco,
    cnDomain := m.cnDomain,
    pdpCharg := m.pdpCharg,
    sessionId := m.sessionId,
    sessionState := m.sessionState }

def st15 (m : Msg) : Msg :=
  { messageType := m.messageType, imsi := m.imsi,
    msisdn := m.msisdn,
    hlr := m.hlr,
    cause := m.cause,
    cancelType := m.cancelType,
    pdpInfoCompl := m.pdpInfoCompl,
    freezePtmsi := m.freezePtmsi,
    pdpInfos := m.pdpInfos,
    numPdp := m.numPdp,
    authVecs := m.authVecs,
    numAuth := m.numAuth,
    auts := m.auts,
    rand := m.rand,
    pco := m.pco,
    cnDomain := m.cnDomain,
    pdpCharg := m.pdpCharg,
    sessionId := m.sessionId,
    sessionState := m.sessionState,
    ssInfo := m.ssInfo }

def st16 (m : Msg) : Msg :=
  { messageType := m.messageType, imsi := m.imsi,
    msisdn := m.msisdn,
    hlr := m.hlr,
    cause := m.cause,
    cancelType := m.cancelType,
    pdpInfoCompl := m.pdpInfoCompl,
    freezePtmsi := m.freezePtmsi,
    pdpInfos := m.pdpInfos,
    numPdp := m.numPdp,
    authVecs := m.authVecs,
    numAuth := m.numAuth,
    auts := m.auts,
    rand := m.rand,
    pco := m.pco,
    cnDomain := m.cnDomain,
    pdpCharg := m.pdpCharg,
    sessionId := m.sessionId,
    sessionState := m.sessionState,
    ssInfo := m.ssInfo,
    smRpMr := m.smRpMr }

def st17 (m : Msg) : Msg :=
  { messageType := m.messageType, imsi := m.imsi,
    msisdn := m.msisdn,
    hlr := m.hlr,
    cause := m.cause,
    cancelType := m.cancelType,
    pdpInfoCompl := m.pdpInfoCompl,
    freezePtmsi := m.freezePtmsi,
    pdpInfos := m.pdpInfos,
    numPdp := m.numPdp,
    authVecs := m.authVecs,
    numAuth := m.numAuth,
    auts := m.auts,
    rand := m.rand,
    pco := m.pco,
    cnDomain := m.cnDomain,
    pdpCharg := m.pdpCharg,
    sessionId := m.sessionId,
    sessionState := m.sessionState,
    ssInfo := m.ssInfo,
    smRpMr := m.smRpMr,
    smRpDaType := m.smRpDaType,
    smRpDa := m.smRpDa }

def st18 (m : Msg) : Msg :=
  { messageType := m.messageType, imsi := m.imsi,
    msisdn := m.msisdn,
    hlr := m.hlr,
    cause := m.cause,
    cancelType := m.cancelType,
    pdpInfoCompl := m.pdpInfoCompl,
    freezePtmsi := m.freezePtmsi,
    pdpInfos := m.pdpInfos,
    numPdp := m.numPdp,
    authVecs := m.authVecs,
    numAuth := m.numAuth,
    auts := m.auts,
    rand := m.rand,
    pco := m.pco,
    cnDomain := m.cnDomain,
    pdpCharg := m.pdpCharg,
    sessionId := m.sessionId,
    sessionState := m.sessionState,
    ssInfo := m.ssInfo,
    smRpMr := m.smRpMr,
    smRpDaType := m.smRpDaType,
    smRpDa := m.smRpDa,
    smRpOaType := m.smRpOaType,
    smRpOa := m.smRpOa }

def st19 (m : Msg) : Msg :=
  { messageType := m.messageType, imsi := m.imsi,
    msisdn := m.msisdn,
    hlr := m.hlr,
    cause := m.cause,
    cancelType := m.cancelType,
    pdpInfoCompl := m.pdpInfoCompl,
    freezePtmsi := m.freezePtmsi,
    pdpInfos := m.pdpInfos,
    numPdp := m.numPdp,
    authVecs := m.authVecs,
    numAuth := m.numAuth,
    auts := m.auts,
    rand := m.rand,
    pco := m.pco,
    cnDomain := m.cnDomain,
    pdpCharg := m.pdpCharg,
    sessionId := m.sessionId,
    sessionState := m.sessionState,
    ssInfo := m.ssInfo,
    smRpMr := m.smRpMr,
    smRpDaType := m.smRpDaType,
    smRpDa := m.smRpDa,
    smRpOaType := m.smRpOaType,
    smRpOa := m.smRpOa,
    smRpUi := m.smRpUi }

def st20 (m : Msg) : Msg :=
  { messageType := m.messageType, imsi := m.imsi,
    msisdn := m.msisdn,
    hlr := m.hlr,
    cause := m.cause,
    cancelType := m.cancelType,
    pdpInfoCompl := m.pdpInfoCompl,
    freezePtmsi := m.freezePtmsi,
    pdpInfos := m.pdpInfos,
    numPdp := m.numPdp,
    authVecs := m.authVecs,
    numAuth := m.numAuth,
    auts := m.auts,
    rand := m.rand,
    pco := m.pco,
    cnDomain := m.cnDomain,
    pdpCharg := m.pdpCharg,
    sessionId := m.sessionId,
    sessionState := m.sessionState,
    ssInfo := m.ssInfo,
    smRpMr := m.smRpMr,
    smRpDaType := m.smRpDaType,
    smRpDa := m.smRpDa,
    smRpOaType := m.smRpOaType,
    smRpOa := m.smRpOa,
    smRpUi := m.smRpUi,
    smRpMms := m.smRpMms }

def st21 (m : Msg) : Msg :=
  { messageType := m.messageType, imsi := m.imsi,
    msisdn := m.msisdn,
    hlr := m.hlr,
    cause := m.cause,
    cancelType := m.cancelType,
    pdpInfoCompl := m.pdpInfoCompl,
    freezePtmsi := m.freezePtmsi,
    pdpInfos := m.pdpInfos,
    numPdp := m.numPdp,
    authVecs := m.authVecs,
    numAuth := m.numAuth,
    auts := m.auts,
    rand := m.rand,
    pco := m.pco,
    cnDomain := m.cnDomain,
    pdpCharg := m.pdpCharg,
    sessionId := m.sessionId,
    sessionState := m.sessionState,
    ssInfo := m.ssInfo,
    smRpMr := m.smRpMr,
    smRpDaType := m.smRpDaType,
    smRpDa := m.smRpDa,
    smRpOaType := m.smRpOaType,
    smRpOa := m.smRpOa,
    smRpUi := m.smRpUi,
    smRpMms := m.smRpMms,
    smRpCause := m.smRpCause }

def st22 (m : Msg) : Msg :=
  { messageType := m.messageType, imsi := m.imsi,
    msisdn := m.msisdn,
    hlr := m.hlr,
    cause := m.cause,
    cancelType := m.cancelType,
    pdpInfoCompl := m.pdpInfoCompl,
    freezePtmsi := m.freezePtmsi,
    pdpInfos := m.pdpInfos,
    numPdp := m.numPdp,
    authVecs := m.authVecs,
    numAuth := m.numAuth,
    auts := m.auts,
    rand := m.rand,
    pco := m.pco,
    cnDomain := m.cnDomain,
    pdpCharg := m.pdpCharg,
    sessionId := m.sessionId,
    sessionState := m.sessionState,
    ssInfo := m.ssInfo,
    smRpMr := m.smRpMr,
    smRpDaType := m.smRpDaType,
    smRpDa := m.smRpDa,
    smRpOaType := m.smRpOaType,
    smRpOa := m.smRpOa,
    smRpUi := m.smRpUi,
    smRpMms := m.smRpMms,
    smRpCause := m.smRpCause,
    smAlertRsn := m.smAlertRsn }

def st23 (m : Msg) : Msg :=
  { messageType := m.messageType, imsi := m.imsi,
    msisdn := m.msisdn,
    hlr := m.hlr,
    cause := m.cause,
    cancelType := m.cancelType,
    pdpInfoCompl := m.pdpInfoCompl,
    freezePtmsi := m.freezePtmsi,
    pdpInfos := m.pdpInfos,
    numPdp := m.numPdp,
    authVecs := m.authVecs,
    numAuth := m.numAuth,
    auts := m.auts,
    rand := m.rand,
    pco := m.pco,
    cnDomain := m.cnDomain,
    pdpCharg := m.pdpCharg,
    sessionId := m.sessionId,
    sessionState := m.sessionState,
    ssInfo := m.ssInfo,
    smRpMr := m.smRpMr,
    smRpDaType := m.smRpDaType,
    smRpDa := m.smRpDa,
    smRpOaType := m.smRpOaType,
    smRpOa := m.smRpOa,
    smRpUi := m.smRpUi,
    smRpMms := m.smRpMms,
    smRpCause := m.smRpCause,
    smAlertRsn := m.smAlertRsn,
    imei := m.imei }

def st24 (m : Msg) : Msg :=
  { messageType := m.messageType, imsi := m.imsi,
    msisdn := m.msisdn,
    hlr := m.hlr,
    cause := m.cause,
    cancelType := m.cancelType,
    pdpInfoCompl := m.pdpInfoCompl,
    freezePtmsi := m.freezePtmsi,
    pdpInfos := m.pdpInfos,
    numPdp := m.numPdp,
    authVecs := m.authVecs,
    numAuth := m.numAuth,
    auts := m.auts,
    rand := m.rand,
    pco := m.pco,
    cnDomain := m.cnDomain,
    pdpCharg := m.pdpCharg,
    sessionId := m.sessionId,
    sessionState := m.sessionState,
    ssInfo := m.ssInfo,
    smRpMr := m.smRpMr,
    smRpDaType := m.smRpDaType,
    smRpDa := m.smRpDa,
    smRpOaType := m.smRpOaType,
    smRpOa := m.smRpOa,
    smRpUi := m.smRpUi,
    smRpMms := m.smRpMms,
    smRpCause := m.smRpCause,
    smAlertRsn := m.smAlertRsn,
    imei := m.imei,
    imeiResult := m.imeiResult }

def st25 (m : Msg) : Msg :=
  { messageType := m.messageType, imsi := m.imsi,
    msisdn := m.msisdn,
    hlr := m.hlr,
    cause := m.cause,
    cancelType := m.cancelType,
    pdpInfoCompl := m.pdpInfoCompl,
    freezePtmsi := m.freezePtmsi,
    pdpInfos := m.pdpInfos,
    numPdp := m.numPdp,
    authVecs := m.authVecs,
    numAuth := m.numAuth,
    auts := m.auts,
    rand := m.rand,
    pco := m.pco,
    cnDomain := m.cnDomain,
    pdpCharg := m.pdpCharg,
    sessionId := m.sessionId,
    sessionState := m.sessionState,
    ssInfo := m.ssInfo,
    smRpMr := m.smRpMr,
    smRpDaType := m.smRpDaType,
    smRpDa := m.smRpDa,
    smRpOaType := m.smRpOaType,
    smRpOa := m.smRpOa,
    smRpUi := m.smRpUi,
    smRpMms := m.smRpMms,
    smRpCause := m.smRpCause,
    smAlertRsn := m.smAlertRsn,
    imei := m.imei,
    imeiResult := m.imeiResult,
    messageClass := m.messageClass }

def st26 (m : Msg) : Msg :=
  { messageType := m.messageType, imsi := m.imsi,
    msisdn := m.msisdn,
    hlr := m.hlr,
    cause := m.cause,
    cancelType := m.cancelType,
    pdpInfoCompl := m.pdpInfoCompl,
    freezePtmsi := m.freezePtmsi,
    pdpInfos := m.pdpInfos,
    numPdp := m.numPdp,
    authVecs := m.authVecs,
    numAuth := m.numAuth,
    auts := m.auts,
    rand := m.rand,
    pco := m.pco,
    cnDomain := m.cnDomain,
    pdpCharg := m.pdpCharg,
    sessionId := m.sessionId,
    sessionState := m.sessionState,
    ssInfo := m.ssInfo,
    smRpMr := m.smRpMr,
    smRpDaType := m.smRpDaType,
    smRpDa := m.smRpDa,
    smRpOaType := m.smRpOaType,
    smRpOa := m.smRpOa,
    smRpUi := m.smRpUi,
    smRpMms := m.smRpMms,
    smRpCause := m.smRpCause,
    smAlertRsn := m.smAlertRsn,
    imei := m.imei,
    imeiResult := m.imeiResult,
    messageClass := m.messageClass,
    sourceName := m.sourceName }

def st27 (m : Msg) : Msg :=
  { messageType := m.messageType, imsi := m.imsi,
    msisdn := m.msisdn,
    hlr := m.hlr,
    cause := m.cause,
    cancelType := m.cancelType,
    pdpInfoCompl := m.pdpInfoCompl,
    freezePtmsi := m.freezePtmsi,
    pdpInfos := m.pdpInfos,
    numPdp := m.numPdp,
    authVecs := m.authVecs,
    numAuth := m.numAuth,
    auts := m.auts,
    rand := m.rand,
    pco := m.pco,
    cnDomain := m.cnDomain,
    pdpCharg := m.pdpCharg,
    sessionId := m.sessionId,
    sessionState := m.sessionState,
    ssInfo := m.ssInfo,
    smRpMr := m.smRpMr,
    smRpDaType := m.smRpDaType,
    smRpDa := m.smRpDa,
    smRpOaType := m.smRpOaType,
    smRpOa := m.smRpOa,
    smRpUi := m.smRpUi,
    smRpMms := m.smRpMms,
    smRpCause := m.smRpCause,
    smAlertRsn := m.smAlertRsn,
    imei := m.imei,
    imeiResult := m.imeiResult,
    messageClass := m.messageClass,
    sourceName := m.sourceName,
    destName := m.destName }

def st28 (m : Msg) : Msg :=
  { messageType := m.messageType, imsi := m.imsi,
    msisdn := m.msisdn,
    hlr := m.hlr,
    cause := m.cause,
    cancelType := m.cancelType,
    pdpInfoCompl := m.pdpInfoCompl,
    freezePtmsi := m.freezePtmsi,
    pdpInfos := m.pdpInfos,
    numPdp := m.numPdp,
    authVecs := m.authVecs,
    numAuth := m.numAuth,
    auts := m.auts,
    rand := m.rand,
    pco := m.pco,
    cnDomain := m.cnDomain,
    pdpCharg := m.pdpCharg,
    sessionId := m.sessionId,
    sessionState := m.sessionState,
    ssInfo := m.ssInfo,
    smRpMr := m.smRpMr,
    smRpDaType := m.smRpDaType,
    smRpDa := m.smRpDa,
    smRpOaType := m.smRpOaType,
    smRpOa := m.smRpOa,
    smRpUi := m.smRpUi,
    smRpMms := m.smRpMms,
    smRpCause := m.smRpCause,
    smAlertRsn := m.smAlertRsn,
    imei := m.imei,
    imeiResult := m.imeiResult,
    messageClass := m.messageClass,
    sourceName := m.sourceName,
    destName := m.destName,
    anProto := m.anProto,
    anData := m.anData }

def st29 (m : Msg) : Msg :=
  { messageType := m.messageType, imsi := m.imsi,
    msisdn := m.msisdn,
    hlr := m.hlr,
    cause := m.cause,
    cancelType := m.cancelType,
    pdpInfoCompl := m.pdpInfoCompl,
    freezePtmsi := m.freezePtmsi,
    pdpInfos := m.pdpInfos,
    numPdp := m.numPdp,
    authVecs := m.authVecs,
    numAuth := m.numAuth,
    auts := m.auts,
    rand := m.rand,
    pco := m.pco,
    cnDomain := m.cnDomain,
    pdpCharg := m.pdpCharg,
    sessionId := m.sessionId,
    sessionState := m.sessionState,
    ssInfo := m.ssInfo,
    smRpMr := m.smRpMr,
    smRpDaType := m.smRpDaType,
    smRpDa := m.smRpDa,
    smRpOaType := m.smRpOaType,
    smRpOa := m.smRpOa,
    smRpUi := m.smRpUi,
    smRpMms := m.smRpMms,
    smRpCause := m.smRpCause,
    smAlertRsn := m.smAlertRsn,
    imei := m.imei,
    imeiResult := m.imeiResult,
    messageClass := m.messageClass,
    sourceName := m.sourceName,
    destName := m.destName,
    anProto := m.anProto,
    anData := m.anData,
    causeRr := m.causeRr,
    causeRrSet := m.causeRrSet }

def st30 (m : Msg) : Msg :=
  { messageType := m.messageType, imsi := m.imsi,
    msisdn := m.msisdn,
    hlr := m.hlr,
    cause := m.cause,
    cancelType := m.cancelType,
    pdpInfoCompl := m.pdpInfoCompl,
    freezePtmsi := m.freezePtmsi,
    pdpInfos := m.pdpInfos,
    numPdp := m.numPdp,
    authVecs := m.authVecs,
    numAuth := m.numAuth,
    auts := m.auts,
    rand := m.rand,
    pco := m.pco,
    cnDomain := m.cnDomain,
    pdpCharg := m.pdpCharg,
    sessionId := m.sessionId,
    sessionState := m.sessionState,
    ssInfo := m.ssInfo,
    smRpMr := m.smRpMr,
    smRpDaType := m.smRpDaType,
    smRpDa := m.smRpDa,
    smRpOaType := m.smRpOaType,
    smRpOa := m.smRpOa,
    smRpUi := m.smRpUi,
    smRpMms := m.smRpMms,
    smRpCause := m.smRpCause,
    smAlertRsn := m.smAlertRsn,
    imei := m.imei,
    imeiResult := m.imeiResult,
    messageClass := m.messageClass,
    sourceName := m.sourceName,
    destName := m.destName,
    anProto := m.anProto,
    anData := m.anData,
    causeRr := m.causeRr,
    causeRrSet := m.causeRrSet,
    causeBssap := m.causeBssap,
    causeBssapSet := m.causeBssapSet }

def st31 (m : Msg) : Msg :=
  { messageType := m.messageType, imsi := m.imsi,
    msisdn := m.msisdn,
    hlr := m.hlr,
    cause := m.cause,
    cancelType := m.cancelType,
    pdpInfoCompl := m.pdpInfoCompl,
    freezePtmsi := m.freezePtmsi,
    pdpInfos := m.pdpInfos,
    numPdp := m.numPdp,
    authVecs := m.authVecs,
    numAuth := m.numAuth,
    auts := m.auts,
    rand := m.rand,
    pco := m.pco,
    cnDomain := m.cnDomain,
    pdpCharg := m.pdpCharg,
    sessionId := m.sessionId,
    sessionState := m.sessionState,
    ssInfo := m.ssInfo,
    smRpMr := m.smRpMr,
    smRpDaType := m.smRpDaType,
    smRpDa := m.smRpDa,
    smRpOaType := m.smRpOaType,
    smRpOa := m.smRpOa,
    smRpUi := m.smRpUi,
    smRpMms := m.smRpMms,
    smRpCause := m.smRpCause,
    smAlertRsn := m.smAlertRsn,
    imei := m.imei,
    imeiResult := m.imeiResult,
    messageClass := m.messageClass,
    sourceName := m.sourceName,
    destName := m.destName,
    anProto := m.anProto,
    anData := m.anData,
    causeRr := m.causeRr,
    causeRrSet := m.causeRrSet,
    causeBssap := m.causeBssap,
    causeBssapSet := m.causeBssapSet,
    causeSm := m.causeSm }

def st32 (m : Msg) : Msg :=
  { messageType := m.messageType, imsi := m.imsi,
    msisdn := m.msisdn,
    hlr := m.hlr,
    cause := m.cause,
    cancelType := m.cancelType,
    pdpInfoCompl := m.pdpInfoCompl,
    freezePtmsi := m.freezePtmsi,
    pdpInfos := m.pdpInfos,
    numPdp := m.numPdp,
    authVecs := m.authVecs,
    numAuth := m.numAuth,
    auts := m.auts,
    rand := m.rand,
    pco := m.pco,
    cnDomain := m.cnDomain,
    pdpCharg := m.pdpCharg,
    sessionId := m.sessionId,
    sessionState := m.sessionState,
    ssInfo := m.ssInfo,
    smRpMr := m.smRpMr,
    smRpDaType := m.smRpDaType,
    smRpDa := m.smRpDa,
    smRpOaType := m.smRpOaType,
    smRpOa := m.smRpOa,
    smRpUi := m.smRpUi,
    smRpMms := m.smRpMms,
    smRpCause := m.smRpCause,
    smAlertRsn := m.smAlertRsn,
    imei := m.imei,
    imeiResult := m.imeiResult,
    messageClass := m.messageClass,
    sourceName := m.sourceName,
    destName := m.destName,
    anProto := m.anProto,
    anData := m.anData,
    causeRr := m.causeRr,
    causeRrSet := m.causeRrSet,
    causeBssap := m.causeBssap,
    causeBssapSet := m.causeBssapSet,
    causeSm := m.causeSm,
    supportedRats := m.supportedRats }

def st33 (m : Msg) : Msg :=
  { messageType := m.messageType, imsi := m.imsi,
    msisdn := m.msisdn,
    hlr := m.hlr,
    cause := m.cause,
    cancelType := m.cancelType,
    pdpInfoCompl := m.pdpInfoCompl,
    freezePtmsi := m.freezePtmsi,
    pdpInfos := m.pdpInfos,
    numPdp := m.numPdp,
    authVecs := m.authVecs,
    numAuth := m.numAuth,
    auts := m.auts,
    rand := m.rand,
    pco := m.pco,
    cnDomain := m.cnDomain,
    pdpCharg := m.pdpCharg,
    sessionId := m.sessionId,
    sessionState := m.sessionState,
    ssInfo := m.ssInfo,
    smRpMr := m.smRpMr,
    smRpDaType := m.smRpDaType,
    smRpDa := m.smRpDa,
    smRpOaType := m.smRpOaType,
    smRpOa := m.smRpOa,
    smRpUi := m.smRpUi,
    smRpMms := m.smRpMms,
    smRpCause := m.smRpCause,
    smAlertRsn := m.smAlertRsn,
    imei := m.imei,
    imeiResult := m.imeiResult,
    messageClass := m.messageClass,
    sourceName := m.sourceName,
    destName := m.destName,
    anProto := m.anProto,
    anData := m.anData,
    causeRr := m.causeRr,
    causeRrSet := m.causeRrSet,
    causeBssap := m.causeBssap,
    causeBssapSet := m.causeBssapSet,
    causeSm := m.causeSm,
    supportedRats := m.supportedRats,
    currentRat := m.currentRat }

theorem step0 (m : Msg) (rest : List Byte) (h : MsgOk m) :
    loop topIe (bytesOf (putOpt 0x08 m.msisdn) ++ rest) (st0 m) = loop topIe rest (st1 m) :=
  g_msisdn (st0 m) m.msisdn rest h.msisdn rfl

theorem step1 (m : Msg) (rest : List Byte) (h : MsgOk m) :
    loop topIe (bytesOf (putOpt 0x09 m.hlr) ++ rest) (st1 m) = loop topIe rest (st2 m) :=
  g_hlr (st1 m) m.hlr rest h.hlr rfl

theorem step2 (m : Msg) (rest : List Byte) (h : MsgOk m) :
    loop topIe (bytesOf (putU8 0x02 m.cause) ++ rest) (st2 m) = loop topIe rest (st3 m) :=
  g_cause (st2 m) m.cause rest h.cause rfl

theorem step3 (m : Msg) (rest : List Byte) (h : MsgOk m) :
    loop topIe (bytesOf (putU8Dec 0x06 m.cancelType) ++ rest) (st3 m) = loop topIe rest (st4 m) :=
  g_cancelType (st3 m) m.cancelType rest h.cancelType rfl

theorem step4 (m : Msg) (rest : List Byte) (h : MsgOk m) :
    loop topIe (bytesOf (if m.pdpInfoCompl then [.put (tlv 0x04 [])] else []) ++ rest) (st4 m) = loop topIe rest (st5 m) :=
  g_pdpInfoCompl (st4 m) m.pdpInfoCompl rest rfl

theorem step5 (m : Msg) (rest : List Byte) (h : MsgOk m) :
    loop topIe (bytesOf (if m.freezePtmsi then [.put (tlv 0x07 [])] else []) ++ rest) (st5 m) = loop topIe rest (st6 m) :=
  g_freezePtmsi (st5 m) m.freezePtmsi rest rfl

theorem step6 (m : Msg) (rest : List Byte) (h : MsgOk m) :
    loop topIe (bytesOf (encodePdpInfos m.pdpInfos m.numPdp 0) ++ rest) (st6 m) = loop topIe rest (st7 m) :=
  (g_pdp m (st6 m) rest h rfl rfl).2

theorem step7 (m : Msg) (rest : List Byte) (h : MsgOk m) :
    loop topIe (bytesOf (encAuth m) ++ rest) (st7 m) = loop topIe rest (st8 m) :=
  (g_auth m (st7 m) rest h rfl rfl rfl).2

theorem step8 (m : Msg) (rest : List Byte) (h : MsgOk m) :
    loop topIe (bytesOf (putFixed 0x26 14 m.auts) ++ rest) (st8 m) = loop topIe rest (st9 m) :=
  g_auts (st8 m) m.auts rest h.auts rfl

theorem step9 (m : Msg) (rest : List Byte) (h : MsgOk m) :
    loop topIe (bytesOf (putFixed 0x20 16 m.rand) ++ rest) (st9 m) = loop topIe rest (st10 m) :=
  g_rand (st9 m) m.rand rest h.rand rfl

theorem step10 (m : Msg) (rest : List Byte) (h : MsgOk m) :
    loop topIe (bytesOf (encPco m) ++ rest) (st10 m) = loop topIe rest (st11 m) :=
  (g_pco m (st10 m) rest h.pco rfl).2

theorem step11 (m : Msg) (rest : List Byte) (h : MsgOk m) :
    loop topIe (bytesOf (putEnum 0x28 m.cnDomain) ++ rest) (st11 m) = loop topIe rest (st12 m) :=
  g_cnDomain (st11 m) m.cnDomain rest h.cnDomain rfl

theorem step12 (m : Msg) (rest : List Byte) (h : MsgOk m) :
    loop topIe (bytesOf (putOpt 0x14 m.pdpCharg) ++ rest) (st12 m) = loop topIe rest (st13 m) :=
  g_pdpCharg (st12 m) m.pdpCharg rest h.pdpCharg rfl

theorem step13 (m : Msg) (rest : List Byte) (h : MsgOk m) :
    loop topIe (bytesOf (encSession m) ++ rest) (st13 m) = loop topIe rest (st14 m) :=
  (g_session m (st13 m) rest h.sessionState h.sessionId rfl rfl).2

theorem step14 (m : Msg) (rest : List Byte) (h : MsgOk m) :
    loop topIe (bytesOf (putOpt 0x35 m.ssInfo) ++ rest) (st14 m) = loop topIe rest (st15 m) :=
  g_ssInfo (st14 m) m.ssInfo rest h.ssInfo rfl

theorem step15 (m : Msg) (rest : List Byte) (h : MsgOk m) :
    loop topIe (bytesOf (putPtr 0x40 m.smRpMr) ++ rest) (st15 m) = loop topIe rest (st16 m) :=
  g_smRpMr (st15 m) m.smRpMr rest h.smRpMr rfl

theorem step16 (m : Msg) (rest : List Byte) (h : MsgOk m) :
    loop topIe (bytesOf (if m.smRpDaType ≠ 0 then encodeSmRp 0x41 true m.smRpDaType m.smRpDa else []) ++ rest) (st16 m) = loop topIe rest (st17 m) :=
  (g_da m (st16 m) rest h.smRpDa rfl rfl).2

theorem step17 (m : Msg) (rest : List Byte) (h : MsgOk m) :
    loop topIe (bytesOf (if m.smRpOaType ≠ 0 then encodeSmRp 0x42 false m.smRpOaType m.smRpOa else []) ++ rest) (st17 m) = loop topIe rest (st18 m) :=
  (g_oa m (st17 m) rest h.smRpOa rfl rfl).2

theorem step18 (m : Msg) (rest : List Byte) (h : MsgOk m) :
    loop topIe (bytesOf (putOpt 0x43 m.smRpUi) ++ rest) (st18 m) = loop topIe rest (st19 m) :=
  g_smRpUi (st18 m) m.smRpUi rest h.smRpUi rfl

theorem step19 (m : Msg) (rest : List Byte) (h : MsgOk m) :
    loop topIe (bytesOf (putPtr 0x45 m.smRpMms) ++ rest) (st19 m) = loop topIe rest (st20 m) :=
  g_smRpMms (st19 m) m.smRpMms rest h.smRpMms rfl

theorem step20 (m : Msg) (rest : List Byte) (h : MsgOk m) :
    loop topIe (bytesOf (putPtr 0x44 m.smRpCause) ++ rest) (st20 m) = loop topIe rest (st21 m) :=
  g_smRpCause (st20 m) m.smRpCause rest h.smRpCause rfl

theorem step21 (m : Msg) (rest : List Byte) (h : MsgOk m) :
    loop topIe (bytesOf (putU8 0x46 m.smAlertRsn) ++ rest) (st21 m) = loop topIe rest (st22 m) :=
  g_smAlertRsn (st21 m) m.smAlertRsn rest h.smAlertRsn rfl

theorem step22 (m : Msg) (rest : List Byte) (h : MsgOk m) :
    loop topIe (bytesOf (putOpt 0x50 m.imei) ++ rest) (st22 m) = loop topIe rest (st23 m) :=
  g_imei (st22 m) m.imei rest h.imei rfl

theorem step23 (m : Msg) (rest : List Byte) (h : MsgOk m) :
    loop topIe (bytesOf (putU8Dec 0x51 m.imeiResult) ++ rest) (st23 m) = loop topIe rest (st24 m) :=
  g_imeiResult (st23 m) m.imeiResult rest h.imeiResult rfl

theorem step24 (m : Msg) (rest : List Byte) (h : MsgOk m) :
    loop topIe (bytesOf (putEnum 0x0a m.messageClass) ++ rest) (st24 m) = loop topIe rest (st25 m) :=
  g_messageClass (st24 m) m.messageClass rest h.messageClass rfl

theorem step25 (m : Msg) (rest : List Byte) (h : MsgOk m) :
    loop topIe (bytesOf (putOpt 0x60 m.sourceName) ++ rest) (st25 m) = loop topIe rest (st26 m) :=
  g_sourceName (st25 m) m.sourceName rest h.sourceName rfl

theorem step26 (m : Msg) (rest : List Byte) (h : MsgOk m) :
    loop topIe (bytesOf (putOpt 0x61 m.destName) ++ rest) (st26 m) = loop topIe rest (st27 m) :=
  g_destName (st26 m) m.destName rest h.destName rfl

theorem step27 (m : Msg) (rest : List Byte) (h : MsgOk m) :
    loop topIe (bytesOf (encAnApdu m) ++ rest) (st27 m) = loop topIe rest (st28 m) :=
  (g_an m (st27 m) rest h.an rfl rfl).2

theorem step28 (m : Msg) (rest : List Byte) (h : MsgOk m) :
    loop topIe (bytesOf (if m.causeRrSet then [.put (tlv 0x63 [BitVec.ofNat 8 m.causeRr])] else []) ++ rest) (st28 m) = loop topIe rest (st29 m) :=
  (g_rr m (st28 m) rest h.causeRr rfl rfl).2

theorem step29 (m : Msg) (rest : List Byte) (h : MsgOk m) :
    loop topIe (bytesOf (if m.causeBssapSet then [.put (tlv 0x64 [BitVec.ofNat 8 m.causeBssap])] else []) ++ rest) (st29 m) = loop topIe rest (st30 m) :=
  (g_bssap m (st29 m) rest h.causeBssap rfl rfl).2

theorem step30 (m : Msg) (rest : List Byte) (h : MsgOk m) :
    loop topIe (bytesOf (putU8 0x65 m.causeSm) ++ rest) (st30 m) = loop topIe rest (st31 m) :=
  g_causeSm (st30 m) m.causeSm rest h.causeSm rfl

theorem step31 (m : Msg) (rest : List Byte) (h : MsgOk m) :
    loop topIe (bytesOf (encRats m) ++ rest) (st31 m) = loop topIe rest (st32 m) :=
  (g_rats m (st31 m) rest h.rats rfl).2

theorem step32 (m : Msg) (rest : List Byte) (h : MsgOk m) :
    loop topIe (bytesOf (putEnum 0x2a m.currentRat) ++ rest) (st32 m) = loop topIe rest (st33 m) :=
  g_currentRat (st32 m) m.currentRat rest h.currentRat rfl

theorem st33_eq (m : Msg) : st33 m = m := rfl

theorem tail_good (m : Msg) (h : MsgOk m) : good (encTail m).flatten := by
  unfold encTail
  refine good_append (b := List.flatten _) (good_opt _ _) ?_
  refine good_append (b := List.flatten _) (good_opt _ _) ?_
  refine good_append (b := List.flatten _) (good_u8 _ _) ?_
  refine good_append (b := List.flatten _) (good_dec _ _) ?_
  refine good_append (b := List.flatten _) ((by split <;> trivial)) ?_
  refine good_append (b := List.flatten _) ((by split <;> trivial)) ?_
  refine good_append (b := List.flatten _) ((g_pdp m (st6 m) [] h rfl rfl).1) ?_
  refine good_append (b := List.flatten _) ((g_auth m (st7 m) [] h rfl rfl rfl).1) ?_
  refine good_append (b := List.flatten _) (good_fixed _ _ _ h.auts) ?_
  refine good_append (b := List.flatten _) (good_fixed _ _ _ h.rand) ?_
  refine good_append (b := List.flatten _) ((g_pco m (st10 m) [] h.pco rfl).1) ?_
  refine good_append (b := List.flatten _) (good_enum _ _) ?_
  refine good_append (b := List.flatten _) (good_opt _ _) ?_
  refine good_append (b := List.flatten _) ((g_session m (st13 m) [] h.sessionState h.sessionId rfl rfl).1) ?_
  refine good_append (b := List.flatten _) (good_opt _ _) ?_
  refine good_append (b := List.flatten _) (good_ptr _ _ h.smRpMr) ?_
  refine good_append (b := List.flatten _) ((g_da m (st16 m) [] h.smRpDa rfl rfl).1) ?_
  refine good_append (b := List.flatten _) ((g_oa m (st17 m) [] h.smRpOa rfl rfl).1) ?_
  refine good_append (b := List.flatten _) (good_opt _ _) ?_
  refine good_append (b := List.flatten _) (good_ptr _ _ h.smRpMms) ?_
  refine good_append (b := List.flatten _) (good_ptr _ _ h.smRpCause) ?_
  refine good_append (b := List.flatten _) (good_u8 _ _) ?_
  refine good_append (b := List.flatten _) (good_opt _ _) ?_
  refine good_append (b := List.flatten _) (good_dec _ _) ?_
  refine good_append (b := List.flatten _) (good_enum _ _) ?_
  refine good_append (b := List.flatten _) (good_opt _ _) ?_
  refine good_append (b := List.flatten _) (good_opt _ _) ?_
  refine good_append (b := List.flatten _) ((g_an m (st27 m) [] h.an rfl rfl).1) ?_
  refine good_append (b := List.flatten _) ((g_rr m (st28 m) [] h.causeRr rfl rfl).1) ?_
  refine good_append (b := List.flatten _) ((g_bssap m (st29 m) [] h.causeBssap rfl rfl).1) ?_
  refine good_append (b := List.flatten _) (good_u8 _ _) ?_
  refine good_append (b := List.flatten _) ((g_rats m (st31 m) [] h.rats rfl).1) ?_
  refine good_append (b := List.flatten _) (good_enum _ _) ?_
  trivial

theorem tail_decodes (m : Msg) (h : MsgOk m) : loop topIe (bytesOf (encTail m).flatten) (st0 m) = .ok m := by
  rw [bytesOf_flatten]
  unfold encTail
  rw [List.map_cons, List.flatten_cons, step0 m _ h]
  rw [List.map_cons, List.flatten_cons, step1 m _ h]
  rw [List.map_cons, List.flatten_cons, step2 m _ h]
  rw [List.map_cons, List.flatten_cons, step3 m _ h]
  rw [List.map_cons, List.flatten_cons, step4 m _ h]
  rw [List.map_cons, List.flatten_cons, step5 m _ h]
  rw [List.map_cons, List.flatten_cons, step6 m _ h]
  rw [List.map_cons, List.flatten_cons, step7 m _ h]
  rw [List.map_cons, List.flatten_cons, step8 m _ h]
  rw [List.map_cons, List.flatten_cons, step9 m _ h]
  rw [List.map_cons, List.flatten_cons, step10 m _ h]
  rw [List.map_cons, List.flatten_cons, step11 m _ h]
  rw [List.map_cons, List.flatten_cons, step12 m _ h]
  rw [List.map_cons, List.flatten_cons, step13 m _ h]
  rw [List.map_cons, List.flatten_cons, step14 m _ h]
  rw [List.map_cons, List.flatten_cons, step15 m _ h]
  rw [List.map_cons, List.flatten_cons, step16 m _ h]
  rw [List.map_cons, List.flatten_cons, step17 m _ h]
  rw [List.map_cons, List.flatten_cons, step18 m _ h]
  rw [List.map_cons, List.flatten_cons, step19 m _ h]
  rw [List.map_cons, List.flatten_cons, step20 m _ h]
  rw [List.map_cons, List.flatten_cons, step21 m _ h]
  rw [List.map_cons, List.flatten_cons, step22 m _ h]
  rw [List.map_cons, List.flatten_cons, step23 m _ h]
  rw [List.map_cons, List.flatten_cons, step24 m _ h]
  rw [List.map_cons, List.flatten_cons, step25 m _ h]
  rw [List.map_cons, List.flatten_cons, step26 m _ h]
  rw [List.map_cons, List.flatten_cons, step27 m _ h]
  rw [List.map_cons, List.flatten_cons, step28 m _ h]
  rw [List.map_cons, List.flatten_cons, step29 m _ h]
  rw [List.map_cons, List.flatten_cons, step30 m _ h]
  rw [List.map_cons, List.flatten_cons, step31 m _ h]
  rw [List.map_cons, List.flatten_cons, step32 m _ h]
  rw [st33_eq]
  rfl

end Verif.Gsup
