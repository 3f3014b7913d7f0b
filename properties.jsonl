{"id": "C01", "title": "Fault state is absorbing", "statement": "Once the vehicle state machine has entered the fault state, no later sequence of sensor data, button presses, fault-manager results or elapsed ticks makes it leave: only re-initialisation does.", "quantifier": "every state-machine state reached from any history, every later input sequence of any length", "why_tests_cant": "a test steps a handful of ticks with chosen inputs; leaving FAULT could need a particular history or tick-counter wrap", "anchors": ["firmware/src/vcu/vehicleLogic/stateManager/stateMachine.c:stateFault", "firmware/src/vcu/vehicleLogic/stateManager/stateMachine.c:VSM_Step"]}
{"id": "C02", "title": "A reported drive fault always forces the fault state and a safe output", "statement": "From every state after the first tick, a step in which the fault manager reports a drive fault ends in the fault state; from the next step on, torque output is disabled, direction is forward and the ECU error line is asserted, and this stays so forever.", "quantifier": "every state other than INIT, every input, every continuation of the run", "why_tests_cant": "needs all state/input combinations and all continuations, including those where mutex acquisition fails", "anchors": ["firmware/src/vcu/vehicleLogic/stateManager/stateMachine.c:VSM_Step", "firmware/src/vcu/vehicleLogic/stateManager/stateMachine.c:stateFault", "firmware/src/vcu/vehicleLogic/stateManager/faultManager.c:FaultManager_Step"]}
{"id": "C03", "title": "Torque output is enabled only in the forward drive state", "statement": "At every tick boundary of every run, the throttle controller is enabled for torque only if the state machine is in ACTIVE_FORWARD, or it entered FAULT in the very last step (one-tick window before the fault handler runs).", "quantifier": "every run of state-machine steps from power-up, any inputs and fault results", "why_tests_cant": "an invariant over all histories; tests only observe selected transitions", "anchors": ["firmware/src/vcu/vehicleLogic/stateManager/stateMachine.c:stateActiveNeutral", "firmware/src/vcu/vehicleLogic/stateManager/stateMachine.c:stateActiveForward", "firmware/src/vcu/vehicleLogic/stateManager/stateMachine.c:stateFault", "firmware/src/vcu/vehicleLogic/throttleController/throttleController.c:ThrottleController_SetTorqueEnabled"]}
{"id": "C04", "title": "Ordered start-up path to drive", "statement": "In every run from initialisation that ends in ACTIVE_FORWARD, the run has passed, in order, through LV_STARTUP, LV_READY, a driver button edge with ECU error released, HV_ACTIVE for at least the configured wait with the inverter enabled at its end, HV_CHARGING until the inverter reports READY, and ACTIVE_NEUTRAL followed by a new button edge; at no point before was a fault reported after LV_STARTUP.", "quantifier": "every run of any length from VSM_Init", "why_tests_cant": "reachability over unbounded histories", "anchors": ["firmware/src/vcu/vehicleLogic/stateManager/stateMachine.c:VSM_Step"]}
{"id": "C05", "title": "The driver button is edge triggered", "statement": "While the button is held continuously, at most one driver transition (HV enable, neutral->forward or forward->neutral) happens; a driver transition out of LV_READY, ACTIVE_NEUTRAL or ACTIVE_FORWARD happens at a step exactly when no fault is reported and the button is sampled pressed while the previous sample taken in one of those states was released.", "quantifier": "every history of button samples and access results", "why_tests_cant": "the previous-sample memory depends on the whole history, in particular on states that do not sample the button", "anchors": ["firmware/src/vcu/vehicleLogic/stateManager/stateMachine.c:stateLvReady", "firmware/src/vcu/vehicleLogic/stateManager/stateMachine.c:stateActiveNeutral", "firmware/src/vcu/vehicleLogic/stateManager/stateMachine.c:stateActiveForward"]}
{"id": "C06", "title": "HV dwell and HV charge timeout are exact", "statement": "Without faults, HV_ACTIVE is left for HV_CHARGING exactly at the first step at which tick period x steps-in-state is at least the configured wait, enabling the inverter once; HV_CHARGING goes to ACTIVE_NEUTRAL at the first step that sees the inverter READY, otherwise to FAULT at the first accessible step at which tick period x steps-in-state exceeds the configured timeout.", "quantifier": "every configuration value, every tick period, every inverter state history, as long as the millisecond product does not wrap", "why_tests_cant": "timing over thousands of ticks and all 32-bit configuration values", "anchors": ["firmware/src/vcu/vehicleLogic/stateManager/stateMachine.c:stateHvActive", "firmware/src/vcu/vehicleLogic/stateManager/stateMachine.c:stateHvCharging", "firmware/src/vcu/vehicleLogic/stateManager/stateMachine.c:VSM_Step"]}
{"id": "C07", "title": "Timed fault conditions debounce exactly", "statement": "A timed fault check (pedal range, pedal disagreement, brake range, pedal abuse, cell temperature, current, cell voltage) fails at a sample exactly when that sample and the preceding `limit` samples were all bad (limit+1 consecutive bad samples); a single good sample restarts the count.", "quantifier": "every sample history of any length and every limit below 65535 (the one remaining value of the 16-bit limit, 65535, never trips)", "why_tests_cant": "needs all histories; also the counter saturation/wrap for long-lasting faults", "anchors": ["firmware/src/vcu/vehicleLogic/stateManager/faultManager.c:handleTimedCondition"]}
{"id": "C08", "title": "Faults latch", "statement": "Every fault bit once raised stays raised for all later steps, and once a step has reported FAULT every later step with data access reports FAULT, whatever the later data.", "quantifier": "every history of vehicle data after the fault", "why_tests_cant": "unbounded continuation", "anchors": ["firmware/src/vcu/vehicleLogic/stateManager/faultManager.c:FaultManager_Step"]}
{"id": "C09", "title": "Fault status classification is exactly the disjunction of documented conditions", "statement": "A fault-manager step reports FAULT iff some documented drive-fault condition (pedal range/disagreement, brake range, pedal abuse when enabled, cell temperature, current, cell voltage after debounce; low state of charge and BMS indicator immediately) has held at this or an earlier step since init, and NO_FAULT otherwise; it reports LV_ERROR only if the vehicle state could not be accessed.", "quantifier": "all vehicle-data histories (including NaN values) and all configurations whose debounce times amount to at most 65535 samples, what the 16-bit counters hold", "why_tests_cant": "all combinations of conditions, debounce histories and float specials", "anchors": ["firmware/src/vcu/vehicleLogic/stateManager/faultManager.c:FaultManager_Step", "firmware/src/vcu/vehicleLogic/stateManager/faultManager.c:isFaultAccelPedal", "firmware/src/vcu/vehicleLogic/stateManager/faultManager.c:isFaultBrakePedal", "firmware/src/vcu/vehicleLogic/stateManager/faultManager.c:isFaultBMS"]}
{"id": "C10", "title": "The shipped wiring lets the state machine run", "statement": "After the system initialisation sequence succeeds, every state-machine tick executes without undefined behaviour.", "quantifier": "every tick after start-up through ECU_Init", "why_tests_cant": "the unit tests set the fault manager's data pointer by hand or mock the fault manager, so the production wiring is never exercised", "anchors": ["firmware/src/vcu/vehicleLogic/stateManager/stateMachine.c:VSM_Init", "firmware/src/vcu/vehicleLogic/stateManager/vehicleStateManager.c:VehicleStateManager_Init", "firmware/src/vcu/startup/initialize.c:ECU_Init", "firmware/src/vcu/vehicleLogic/stateManager/faultManager.c:FaultManager_Step"]}
{"id": "C11", "title": "With the shipped configuration the BMS limits act at their documented physical values and a healthy vehicle can drive", "statement": "With the default configuration (75 degC, 450 A, 4.2 V, 10 % state of charge), BMS frames that report physical values inside these limits raise no fault and BMS frames that report values outside for the debounce time raise the corresponding fault.", "quantifier": "all BMS CAN frames and histories, default configuration", "why_tests_cant": "requires the end-to-end composition frame decode -> vehicle state -> threshold for all 16-bit raw values", "anchors": ["firmware/src/vcu/vehicleLogic/stateManager/faultManager.c:isFaultBMS", "firmware/src/vcu/device/bms/orionBms.c:HandleMsg_PackState", "firmware/src/vcu/vehicleInterface/config/configDataDefault.h"]}
{"id": "C12", "title": "Fault codes are one-hot and pairwise distinct", "statement": "Each documented fault has its own single bit; LV errors lie in the low byte and drive faults in the upper 24 bits.", "quantifier": "all pairs of fault codes", "why_tests_cant": "no unit test compares the whole table with its documentation", "anchors": ["firmware/src/vcu/vehicleLogic/stateManager/faultManager.h"]}
{"id": "C13", "title": "Torque map: zero outside range, bounded, monotone, exact at break points", "statement": "TorqueMap_Interpolate on the shipped maps returns 0 for every accelerator value below 0, above 1, or NaN; for values in [0,1] it returns a torque between 0 and the map maximum, is monotone in the accelerator, and equals the table value at every break point; in the 0-10 % dead zone it is exactly 0.", "quantifier": "every binary32 accelerator value including infinities and NaN, under round-to-nearest arithmetic", "why_tests_cant": "2^32 inputs with rounding", "anchors": ["firmware/src/vcu/vehicleLogic/throttleController/torqueMap.c:TorqueMap_Interpolate"]}
{"id": "C14", "title": "Torque requested on the wire is zero unless enabled, and always representable", "statement": "On every throttle tick the torque passed to the inverter is 0 when torque is disabled or vehicle state is not accessible, otherwise the map value of the accelerator for the current direction; for every accelerator value (including NaN/inf) it is within the inverter's accepted range, so it is never rejected and its conversion to the 16-bit wire value is defined.", "quantifier": "every accelerator float, every enable/direction state", "why_tests_cant": "all floats; the conversion is undefined behaviour outside int16", "anchors": ["firmware/src/vcu/vehicleLogic/throttleController/throttleController.c:getTorqueMagnitude", "firmware/src/vcu/vehicleLogic/throttleController/throttleController.c:ThrottleController", "firmware/src/vcu/device/inverter/cInverter.c:CInverter_SendTorqueCommand"]}
{"id": "C15", "title": "No torque after torque was disabled", "statement": "Once a call that disables torque has returned, every torque request issued afterwards is zero.", "quantifier": "every interleaving of the throttle task with the tasks calling SetTorqueEnabled/SetMotorDirection", "why_tests_cant": "thread interleavings", "anchors": ["firmware/src/vcu/vehicleLogic/throttleController/throttleController.c:ThrottleController", "firmware/src/vcu/vehicleLogic/throttleController/throttleController.c:ThrottleController_SetTorqueEnabled"]}
{"id": "C16", "title": "Inverter enable and discharge exclude each other", "statement": "In every reachable driver state the inverter is never commanded enabled and in discharge mode at once, and no CAN frame with both the enable and the discharge bit set is ever sent.", "quantifier": "every sequence of driver calls with any CAN/mutex outcomes", "why_tests_cant": "unbounded call sequences and failure injections", "anchors": ["firmware/src/vcu/device/inverter/cInverter.c:CInverter_SendInverterEnabled", "firmware/src/vcu/device/inverter/cInverter.c:CInverter_SendInverterDischarge", "firmware/src/vcu/device/inverter/cInverter.c:SendCANCommand"]}
{"id": "C17", "title": "Torque commands are sent only when enabled and in range", "statement": "CInverter_SendTorqueCommand sends exactly one frame with the requested torque, direction, enable=1, discharge=0 iff torque is within [0, 3276.7] and the inverter is enabled and the lock is obtained; otherwise it sends nothing and returns the matching error.", "quantifier": "every float torque, direction, driver state", "why_tests_cant": "all floats including NaN", "anchors": ["firmware/src/vcu/device/inverter/cInverter.c:CInverter_SendTorqueCommand"]}
{"id": "C18", "title": "Enabling the inverter first sends a disable frame", "statement": "Every transition of the driver from disabled to enabled puts a frame with enable=0 before the first frame with enable=1 (inverter lockout protocol); in every command stream each first enable=1 frame after a disable is immediately preceded by an enable=0 frame.", "quantifier": "every sequence of driver calls", "why_tests_cant": "property of whole frame streams", "anchors": ["firmware/src/vcu/device/inverter/cInverter.c:CInverter_SendInverterEnabled"]}
{"id": "C19", "title": "Driver status reports command transmission failure", "statement": "CInverter_SendInverterEnabled, SendInverterDischarge and SendTorqueCommand return OK iff every CAN frame they had to send was accepted by the CAN layer.", "quantifier": "every CAN outcome pattern", "why_tests_cant": "all failure patterns for multi-frame calls", "anchors": ["firmware/src/vcu/device/inverter/cInverter.c:CInverter_SendInverterEnabled", "firmware/src/vcu/device/inverter/cInverter.c:CInverter_SendInverterDischarge"]}
{"id": "C20", "title": "The last frame on the wire matches the driver's mode", "statement": "After every successful driver call, the enable and discharge bits of the last frame sent equal the driver's recorded enabled and discharge mode.", "quantifier": "every sequence of driver calls", "why_tests_cant": "history dependent", "anchors": ["firmware/src/vcu/device/inverter/cInverter.c:CInverter_SendInverterEnabled", "firmware/src/vcu/device/inverter/cInverter.c:CInverter_SendInverterDischarge"]}
{"id": "C21", "title": "Inverter command frame encoding is exact and invertible", "statement": "The 8 command bytes encode torque x10 as little-endian int16 in bytes 0-1, zero speed, direction in byte 4 bit 0, enable and discharge in byte 5 bits 0 and 1, zero torque limit; decoding recovers direction, enable, discharge exactly and torque within 0.1 Nm; all other bits are zero.", "quantifier": "every accepted torque, direction, enable, discharge", "why_tests_cant": "all torques with rounding", "anchors": ["firmware/src/vcu/device/inverter/cInverter.c:SendCANCommand"]}
{"id": "C22", "title": "Inverter status frames update exactly the documented fields", "statement": "Receiving an 8-byte inverter frame with a known identifier on the inverter's bus sets exactly the documented vehicle-state fields to the documented scaled values of the payload and leaves every other field unchanged; frames with other DLC, other bus or unknown identifier change nothing.", "quantifier": "every payload, identifier, DLC, bus and prior state", "why_tests_cant": "2^64 payloads times all prior states", "anchors": ["firmware/src/vcu/device/inverter/cInverter.c:HandleMsg_Temperatures1", "firmware/src/vcu/device/inverter/cInverter.c:InverterProcessing"]}
{"id": "C23", "title": "BMS frames update exactly the documented fields with the documented scale", "statement": "Receiving an 8-byte BMS frame with identifier base+1..4 on the BMS bus sets exactly the documented battery fields to the documented physical value (temperature x10, cell voltage x100, current x10, voltage x10, state of charge x100) and leaves all other fields unchanged; other frames change nothing.", "quantifier": "every payload, identifier, DLC, bus and prior state", "why_tests_cant": "2^64 payloads times all prior states", "anchors": ["firmware/src/vcu/device/bms/orionBms.c"]}
{"id": "C24", "title": "CAN receive routing is exact", "statement": "Each received CAN frame is appended, in arrival order, to exactly those registered queues of its bus whose (identifier & mask) equals the registered id and which are not full; no other queue changes. What a queue's owner reads is an in-order selection of the matching frames of its bus.", "quantifier": "every registration set, every sequence of frames with standard identifiers (what happens to extended ones is the subject of C26)", "why_tests_cant": "unbounded frame sequences and registration tables", "anchors": ["firmware/src/system-lib/can/can.c:CAN_RegisterQueue", "firmware/src/system-lib/can/can.c:ISR_RxMsgPendingCallback"]}
{"id": "C25", "title": "Accepted CAN transmissions reach the bus exactly once, in order", "statement": "Every frame accepted with OK by CAN_SendMessage is handed to the hardware exactly once, unmodified, and frames of the same caller in call order.", "quantifier": "every sequence of sends, mailbox states and transmit-complete interrupts", "why_tests_cant": "interleavings of sends with interrupts", "anchors": ["firmware/src/system-lib/can/can.c:CAN_SendMessage", "firmware/src/system-lib/can/can.c:ISR_TxCompleteCallback", "firmware/src/system-lib/can/can.c:CAN_Config"]}
{"id": "C26", "title": "CAN identifiers delivered to listeners are the identifiers on the wire", "statement": "A listener receives a frame with identifier i only if a standard frame with identifier i was received; extended frames are never delivered under a stale identifier.", "quantifier": "every mix of standard and extended frames", "why_tests_cant": "depends on uninitialised/stale header contents", "anchors": ["firmware/src/system-lib/can/can.c:ISR_RxMsgPendingCallback"]}
{"id": "C27", "title": "CAN transmit is memory safe for every length", "statement": "CAN_SendMessage never writes outside its buffers for any payload length argument.", "quantifier": "every length and mailbox state", "why_tests_cant": "lengths > 8 only on the queued path", "anchors": ["firmware/src/system-lib/can/can.c:CAN_SendMessage"]}
{"id": "C28", "title": "UART transmit preserves the byte stream", "statement": "The bytes handed to the UART DMA over time are exactly the bytes of the accepted messages in call order, without duplication, reordering or interleaving; bytes are lost only where the pending buffer was full.", "quantifier": "every sequence of sends, transmit-complete and error interrupts, hardware outcomes", "why_tests_cant": "interrupt interleavings over unbounded histories", "anchors": ["firmware/src/system-lib/uart/uart.c:UART_SendMessage", "firmware/src/system-lib/uart/uart.c:HAL_UART_TxCpltCallback", "firmware/src/system-lib/uart/uart.c:HAL_UART_ErrorCallback"]}
{"id": "C29", "title": "UART transmit is memory safe", "statement": "UART_SendMessage and the transmit-complete handler never write outside the DMA buffer, for every message length.", "quantifier": "every length", "why_tests_cant": "needs all lengths and pending contents", "anchors": ["firmware/src/system-lib/uart/uart.c:UART_SendMessage"]}
{"id": "C30", "title": "Frame decoder buffer safety", "statement": "For every configured message length accepted by MsgFrameDecode_Init and every sequence of byte batches and RecvMsg calls, the decoder never reads or writes outside its 1024-byte buffer, its cursors stay ordered, and RecvMsg terminates.", "quantifier": "every message length, every byte batch sequence", "why_tests_cant": "unbounded byte sequences", "anchors": ["firmware/src/system-lib/uart/msgframedecode.c:MsgFrameDecode_RecvBytes", "firmware/src/system-lib/uart/msgframedecode.c:MsgFrameDecode_RecvMsg", "firmware/src/system-lib/uart/msgframedecode.c:MsgFrameDecode_Init"]}
{"id": "C31", "title": "Frame decoder soundness", "statement": "A message returned by RecvMsg is a contiguous run of received bytes of the configured length that starts with ':', ends with CR LF and whose big-endian CRC field equals the CRC of the message with the CRC field zeroed; the bytes are returned unmodified.", "quantifier": "every received byte sequence, every message length from 6 on (shorter ones leave the buffer, C30) and every behaviour of the CRC unit", "why_tests_cant": "all byte sequences", "anchors": ["firmware/src/system-lib/uart/msgframedecode.c:MsgFrameDecode_RecvMsg", "firmware/src/system-lib/uart/msgframedecode.c:verifyCrc"]}
{"id": "C32", "title": "Frame decoder completeness, chunking independence and resynchronisation", "statement": "However the input stream is cut into accepted batches, with RecvMsg drained after each batch, the sequence of returned messages equals the greedy left-to-right parse of the whole stream: every valid frame not overlapping an earlier accepted one is returned, once, in order, regardless of surrounding garbage.", "quantifier": "every stream, every way of cutting it and every message length from 6 on", "why_tests_cant": "exponentially many chunkings of unbounded streams", "anchors": ["firmware/src/system-lib/uart/msgframedecode.c:MsgFrameDecode_RecvMsg"]}
{"id": "C33", "title": "Frame encode/decode round trip", "statement": "A frame built by InitFrame, payload write and UpdateCRC, when fed to a decoder of the same length, is returned as exactly that frame with address, function and payload intact.", "quantifier": "every address, function, payload and length in 11..1024, every CRC function", "why_tests_cant": "all payloads", "anchors": ["firmware/src/system-lib/uart/msgframeencode.c", "firmware/src/system-lib/uart/msgframedecode.c"]}
{"id": "C34", "title": "A frame is never accepted when its CRC could not be computed", "statement": "If the CRC unit cannot compute the checksum, the decoder accepts no message.", "quantifier": "every frame and CRC-unit failure", "why_tests_cant": "failure injection at each frame", "anchors": ["firmware/src/system-lib/uart/msgframedecode.c:verifyCrc", "firmware/src/system-lib/crc/crc.c:CRC_Calculate"]}
{"id": "C35", "title": "PC request stream never wedges and loses no request", "statement": "Processing an arbitrary serial byte stream in batches of at most 8 bytes with one RecvMsg per batch never overflows the decoder (no batch is dropped), and every valid request frame is handled after at most one further batch.", "quantifier": "every byte stream and batch split", "why_tests_cant": "unbounded streams; the caller does not drain the decoder as its contract suggests", "anchors": ["firmware/src/vcu/device/pcinterface/requests.c:HandleRequests"]}
{"id": "C36", "title": "PC requests act only as addressed and authorised", "statement": "A request frame causes a vehicle effect only if control is enabled, the frame has the request length and is addressed to the ECU; the SDC request sets the ECU error line to (data[7] != 0), the PDM request sets channels 0..5 to (data[2+i] != 0), debug text goes only to the terminal, any other function has no effect.", "quantifier": "every frame content", "why_tests_cant": "all 2^64 payloads and function codes", "anchors": ["firmware/src/vcu/device/pcinterface/requests.c:handleMessage"]}
{"id": "C37", "title": "NMEA decoder memory safety", "statement": "For every GPS byte stream cut into any batches, accumulating and decoding never accesses memory outside the decoder buffers.", "quantifier": "every byte stream and batch split", "why_tests_cant": "adversarial or noisy serial input", "anchors": ["firmware/src/system-lib/uart/nmeadecode.c:NmeaDecode_Decode", "firmware/src/system-lib/uart/nmeadecode.c:tryDecode", "firmware/src/system-lib/uart/nmeadecode.c:extractNextToken"]}
{"id": "C38", "title": "NMEA checksum soundness", "statement": "Every decoded sentence is a contiguous run of received bytes `$ body * HH CR LF` in which HH is the XOR of the body bytes, and its talker/type is GPGGA.", "quantifier": "every buffer content", "why_tests_cant": "all byte sequences", "anchors": ["firmware/src/system-lib/uart/nmeadecode.c:verifyChecksum", "firmware/src/system-lib/uart/nmeadecode.c:tryDecode"]}
{"id": "C39", "title": "Every valid GPGGA sentence is decoded once, however it arrives", "statement": "A valid GPGGA sentence in the GPS stream is decoded exactly once with its field values regardless of preceding bytes and of how the stream is cut into reads.", "quantifier": "every valid sentence, prefix and cut", "why_tests_cant": "all cuts and prefixes", "anchors": ["firmware/src/system-lib/uart/nmeadecode.c:NmeaDecode_Decode", "firmware/src/vcu/device/gps/gps.c"]}
{"id": "C40", "title": "NMEA field parsing is exact", "statement": "Decimal and hexadecimal character/number conversions return the value of every valid digit string that fits and reject every invalid one; a time field is accepted iff it is hhmmss or hhmmss.sss of digits and yields these values; position strings are NUL terminated within their 11-byte fields; a payload is accepted only if its first twelve fields are non-empty and well formed (time, position, N or S, position, E or W, a digit, a number, five more), and the output then holds exactly their values.", "quantifier": "every input string (C strings, so without NUL)", "why_tests_cant": "all strings", "anchors": ["firmware/src/system-lib/uart/nmeatypes.c"]}
{"id": "C41", "title": "NMEA output type is NULL whenever decoding fails", "statement": "When NmeaDecode_Decode returns false the output message type is NULL.", "quantifier": "every buffer state", "why_tests_cant": "only particular lengths expose the leftover type", "anchors": ["firmware/src/system-lib/uart/nmeadecode.c:NmeaDecode_Decode"]}
{"id": "C42", "title": "Debug terminal memory safety", "statement": "For every sequence of debug-terminal payloads, receiving, assembling, tokenising and executing commands never writes outside the terminal, command and argument buffers or dereferences a null command.", "quantifier": "every byte sequence", "why_tests_cant": "adversarial text input", "anchors": ["firmware/src/vcu/device/pcinterface/debugterm.c:DebugTermRecv", "firmware/src/vcu/device/pcinterface/debugterm.c:processBuffer", "firmware/src/vcu/device/pcinterface/debugterm.c:processCommandStr", "firmware/src/vcu/device/pcinterface/debugtermcommands.c"]}
{"id": "C43", "title": "Each terminal line is executed exactly once with its own words", "statement": "The commands executed are exactly the newline-terminated lines received, in order, each split into its blank-separated words.", "quantifier": "every text stream and every 8-byte packetisation", "why_tests_cant": "packet boundaries relative to newlines", "anchors": ["firmware/src/vcu/device/pcinterface/debugterm.c:processBuffer", "firmware/src/vcu/device/pcinterface/debugterm.c:processCommandStr"]}
{"id": "C44", "title": "setpdm and setsdc are all-or-nothing", "statement": "setpdm changes power channels only if it has exactly six arguments each beginning with 0 or 1, and then sets all six accordingly and reports each with the value it was set to; setsdc changes the ECU error only for exactly one argument beginning with 0 or 1, and then reports it; otherwise they have no vehicle effect and say why.", "quantifier": "every argument vector", "why_tests_cant": "all argument vectors", "anchors": ["firmware/src/vcu/device/pcinterface/debugtermcommands.c:cmd_setpdm", "firmware/src/vcu/device/pcinterface/debugtermcommands.c:cmd_setsdc"]}
{"id": "C45", "title": "Debug print never overruns its frame buffer", "statement": "Printing any text through the debug terminal stays inside the encode buffer and sends a well-formed frame carrying the text (truncated to the documented maximum).", "quantifier": "every text length", "why_tests_cant": "lengths near the limit", "anchors": ["firmware/src/vcu/device/pcinterface/debugtermlib.h:DebugPrint"]}
{"id": "C46", "title": "Telemetry reports the named field", "statement": "Each periodic state frame carries the documented field identifier, the field's size and the current value of exactly that field, most significant byte first, and a receiver recovers it.", "quantifier": "every vehicle state", "why_tests_cant": "all states; a swapped field is invisible when values coincide", "anchors": ["firmware/src/vcu/device/pcinterface/periodicupdates.c"]}
{"id": "C47", "title": "Log text is delivered in order without loss or duplication", "statement": "The concatenation of the payloads of log frames with zero padding removed equals the text accepted into the log stream.", "quantifier": "every sequence of log prints and flushes", "why_tests_cant": "chunk boundaries over unbounded streams", "anchors": ["firmware/src/vcu/device/pcinterface/pcinterface.c:flushLogMessage", "firmware/src/system-lib/logging/logging.c:Log_Print"]}
{"id": "C48", "title": "ADC readings come from the last completed conversion sweep", "statement": "ADC_Get returns, for every configured channel, the sample of the most recently completed sweep, never a mixture with a sweep in progress, and reports not-ready before the first sweep completes.", "quantifier": "every history of half/full transfer events and DMA contents", "why_tests_cant": "interrupt timing", "anchors": ["firmware/src/system-lib/adc/adc.c:ADC_Get", "firmware/src/system-lib/adc/adc.c:HAL_ADC_ConvHalfCpltCallback", "firmware/src/system-lib/adc/adc.c:HAL_ADC_ConvCpltCallback"]}
{"id": "C49", "title": "ADC_Get rejects every channel out of range", "statement": "ADC_Get returns the bad-channel status and 0 for every channel number that is not one of the configured channels, and never reads outside the sample buffer.", "quantifier": "every channel number and configured count", "why_tests_cant": "boundary at channel = count", "anchors": ["firmware/src/system-lib/adc/adc.c:ADC_Get"]}
{"id": "C50", "title": "ADC scaling stays in range and is monotone", "statement": "With saturation, ADC_ApplyScaling of every 16-bit reading with distinct calibration points lies in [0,1], is 0 at the lower and 1 at the upper point, is monotone in the reading, and never is NaN.", "quantifier": "every reading and calibration pair, under binary32 rounding", "why_tests_cant": "2^48 inputs with rounding", "anchors": ["firmware/src/system-lib/adc/adc.c:ADC_ApplyScaling"]}
{"id": "C51", "title": "Discrete sensor publication", "statement": "On each sensor tick every published pedal/brake value comes from a successful ADC reading of this tick or is unchanged; the averaged accelerator changes only if both sensors were read, is within [0,1] for distinct calibration points, and is then marked valid; the button is always updated.", "quantifier": "every ADC outcome pattern and prior state, every configuration with distinct calibration points", "why_tests_cant": "all failure patterns", "anchors": ["firmware/src/vcu/device/discretesense/discretesense.c"]}
{"id": "C52", "title": "Wheel speed counts rising edges", "statement": "In each one-second batch the published count equals the number of low-to-high changes between consecutive samples of the batch and the published RPM is floor(60*count/teeth) without truncation; no edge is lost over a sequence of batches.", "quantifier": "every sample sequence up to the batch size and every tooth count", "why_tests_cant": "all 2^2000 sample sequences", "anchors": ["firmware/src/vcu/device/wheelspeed/wheelspeed.c:countLowHighTransitions", "firmware/src/vcu/device/wheelspeed/wheelspeed.c:Wheelspeed_Task"]}
{"id": "C53", "title": "Periodic work runs every 100 ticks", "statement": "The wheel-speed update and the PC state broadcast run exactly once per 100 timer ticks for ever; the heartbeat output toggles exactly every 100 ticks.", "quantifier": "every number of ticks", "why_tests_cant": "counter wrap-around happens after minutes or months", "anchors": ["firmware/src/vcu/device/wheelspeed/wheelspeed.c", "firmware/src/vcu/device/pcinterface/pcinterface.c", "firmware/src/vcu/vehicleLogic/watchdogTrigger/watchdogTrigger.c"]}
{"id": "C54", "title": "Shutdown-circuit inputs are published eventually and without tearing", "statement": "Whenever the SDC task has no pending notification and is idle, the published shutdown-circuit status equals the last sampled pin values, for every interleaving of the interrupt with the task.", "quantifier": "every interleaving of interrupts with the publishing task", "why_tests_cant": "interrupt in the middle of the copy", "anchors": ["firmware/src/vcu/device/sdc/sdc.c"]}
{"id": "C55", "title": "Power channel state mirrors the outputs", "statement": "After every sequence of channel commands, for every channel, the published channel state equals the level last driven on its pin; commands with an invalid channel or without state access change neither.", "quantifier": "every command sequence", "why_tests_cant": "unbounded sequences with failures", "anchors": ["firmware/src/vcu/device/pdm/pdm.c"]}
{"id": "C56", "title": "Task timer notifies each registered task exactly once per period", "statement": "Each timer period notifies every registered task exactly once, in registration order, never writes past its table, and registration beyond 16 tasks is refused without effect; foreign timers notify nobody.", "quantifier": "every registration sequence and timer event", "why_tests_cant": "unbounded sequences", "anchors": ["firmware/src/system-lib/tasktimer/tasktimer.c"]}
{"id": "C57", "title": "Module dependency ids are unique and truthful", "statement": "Every successful registration yields a fresh nonzero id and a dependency check succeeds iff the id was issued by an earlier registration.", "quantifier": "every registration history", "why_tests_cant": "unbounded histories", "anchors": ["firmware/src/system-lib/depends/depends.c"]}
{"id": "C58", "title": "The start-up order satisfies every dependency and fails safe", "statement": "If every hardware call succeeds, the start-up sequence completes with all dependency checks passing; if any step fails, no later module is initialised and no vehicle task runs.", "quantifier": "every pattern of hardware results", "why_tests_cant": "2^n failure patterns over the whole sequence", "anchors": ["firmware/src/vcu/startup/initialize.c"]}
{"id": "C59", "title": "Bus drivers release their locks on every path", "statement": "After any I2C or SPI call returns (success or error), the bus lock is available again, so a failed transfer never blocks the bus for ever.", "quantifier": "every sequence of calls and hardware outcomes", "why_tests_cant": "failure injection sequences", "anchors": ["firmware/src/system-lib/i2c/i2c.c", "firmware/src/system-lib/spi/spi.c"]}
{"id": "C60", "title": "A blocking I2C read returns only data of its own transfer", "statement": "I2C_Read returns OK only after the hardware signalled completion of the transfer it started. A completion on one bus leaves the other bus alone.", "quantifier": "every sequence of transfers and completion interrupts", "why_tests_cant": "interrupt timing", "anchors": ["firmware/src/system-lib/i2c/i2c.c:I2C_Read"]}
{"id": "C61", "title": "Log_Print never blocks on or corrupts other text and truncates at its limit", "statement": "Each Log_Print appends a prefix of its message of at most the documented length, contiguous, to the log stream; nothing else changes.", "quantifier": "every message and stream fill level", "why_tests_cant": "all lengths and fill levels", "anchors": ["firmware/src/system-lib/logging/logging.c:Log_Print"]}
{"id": "C62", "title": "A requested torque belongs to the direction it is sent with", "statement": "Every torque request the throttle process issues carries a torque computed with the map of the direction in that same request: a reverse request never carries more than the reverse map allows.", "quantifier": "every interleaving of the throttle task with changes of the requested motor direction", "why_tests_cant": "depends on a preemption between computing the magnitude and reading the direction", "anchors": ["firmware/src/vcu/vehicleLogic/throttleController/throttleController.c:ThrottleController_SetMotorDirection", "firmware/src/vcu/vehicleLogic/throttleController/throttleController.c:ThrottleController"]}
{"id": "C63", "title": "Loss of BMS or inverter communication is reported", "statement": "When no BMS (or inverter) frame arrives for longer than the configured CAN timeout, the fault status leaves NO_FAULT.", "quantifier": "every configuration, every healthy last sample and every length of silence", "why_tests_cant": "unbounded time without events; absence of a reaction cannot be tested", "anchors": ["firmware/src/vcu/vehicleLogic/stateManager/faultManager.c:isLVErrorBMS", "firmware/src/vcu/vehicleLogic/stateManager/faultManager.c:isLVErrorInverter", "README.md"]}
{"id": "C64", "title": "Every documented drive fault can be raised", "statement": "For each fault of the documented fault table there is a history of vehicle data that raises its code.", "quantifier": "every fault code, every configuration and history", "why_tests_cant": "unreachability of a code over all histories", "anchors": ["firmware/src/vcu/vehicleLogic/stateManager/faultManager.c:isFaultInverter", "README.md"]}
{"id": "C65", "title": "Remote requests are never decoded as data", "statement": "A CAN remote request (a frame without payload) never changes the vehicle state and is never delivered to a listener as a data frame.", "quantifier": "every frame on the wire, every registration", "why_tests_cant": "the frame kind is a wire-level input no host test generates", "anchors": ["firmware/src/system-lib/can/can.c:ISR_RxMsgPendingCallback"]}
{"id": "C66", "title": "UART reception delivers every byte once, in order", "statement": "The bytes pushed into a device's receive stream are exactly the bytes received on the line, each once and in order, up to the last idle gap.", "quantifier": "every byte sequence and every placement of idle gaps", "why_tests_cant": "depends on DMA half-transfer events that host tests do not raise", "anchors": ["firmware/src/system-lib/uart/uart.c:HAL_UARTEx_RxEventCallback"]}
{"id": "C67", "title": "The two PC serial ports do not interfere", "statement": "A valid request frame received on one of the two PC serial ports is handled whatever bytes the other port receives in the meantime.", "quantifier": "every pair of byte streams on the two ports and every interleaving of their arrival", "why_tests_cant": "all interleavings of two streams", "anchors": ["firmware/src/vcu/device/pcinterface/pcinterface.c:PCInterface_Init", "firmware/src/vcu/device/pcinterface/requests.c:PCInterface_HandleRequests", "firmware/src/system-lib/uart/uart.c:UART_SetRecvStream"]}
{"id": "C68", "title": "Pedal and brake readings follow the sensors", "statement": "With the shipped converter and DMA configuration, the value read for each pedal and brake channel is the latest completed sample of that channel, so that pressing the pedal changes the published position.", "quantifier": "every sequence of sensor voltages and every number of conversion sweeps", "why_tests_cant": "the DMA transfer width is a hardware setting the host tests replace by a stub", "anchors": ["firmware/src/system-lib/adc/adc.c:ADC_Get", "firmware/src/cube-proj/Core/Src/stm32f7xx_hal_msp.c:HAL_ADC_MspInit", "firmware/src/cube-proj/Core/Src/main.c:MX_ADC1_Init", "firmware/src/vcu/vehicleInterface/config/deviceMapping.h"]}
{"id": "C69", "title": "The published shutdown-circuit status follows the pins", "statement": "Once the shutdown-circuit device is initialised and the publishing task has run, the published status of each shutdown-circuit input equals the level of its pin, for rising and falling changes and for levels already present at start-up.", "quantifier": "every history of pin level changes and every interleaving with the publishing task", "why_tests_cant": "the interrupt edge selection is a hardware setting; host tests call the handler directly", "anchors": ["firmware/src/vcu/device/sdc/sdc.c:SDC_IRQHandler", "firmware/src/vcu/device/sdc/sdc.c:SDC_Init", "firmware/src/cube-proj/Core/Src/main.c:MX_GPIO_Init"]}
{"id": "C70", "title": "Interrupts during start-up are harmless", "statement": "An interrupt arriving at any point of the start-up sequence, before its device is initialised, accesses no invalid memory and notifies no task that does not exist.", "quantifier": "every arrival point of every enabled interrupt during start-up", "why_tests_cant": "interrupt timing during boot", "anchors": ["firmware/src/vcu/startup/interrupts.c", "firmware/src/vcu/device/sdc/sdc.c:SDC_IRQHandler", "firmware/src/system-lib/tasktimer/tasktimer.c:TaskTimer_TIM_PeriodElapsedCallback", "firmware/src/vcu/device/wheelspeed/wheelspeed.c:Wheelspeed_TIM_IRQHandler"]}
{"id": "C71", "title": "Wheel pulses reach the published wheel speed", "statement": "After the shipped start-up has completed, turning wheels change the published wheel speeds and pulse counts.", "quantifier": "every completed start-up and every later history of wheel sensor levels, timer interrupts and task activations", "why_tests_cant": "which hardware timers run is decided by start-up code on the target; host tests call the sampling handler directly", "anchors": ["firmware/src/vcu/startup/initialize.c", "firmware/src/vcu/device/wheelspeed/wheelspeed.c:Wheelspeed_TIM_IRQHandler", "firmware/src/vcu/vehicleInterface/config/deviceMapping.h:MAPPING_TIMER_2KHZ", "firmware/src/system-lib/tasktimer/tasktimer.c:TaskTimer_Init"]}
{"id": "C72", "title": "A failed start-up is signalled on the ECU error line", "statement": "When start-up fails, the ECU error line is asserted.", "quantifier": "every combination of failing hardware calls during start-up", "why_tests_cant": "needs hardware failures at boot and the scheduler's priorities", "anchors": ["firmware/src/vcu/startup/initialize.c:ECU_Init_Error", "firmware/src/vcu/device/sdc/sdc.c:SDC_AssertECUFault"]}
{"id": "C73", "title": "The dashboard lamp keeps the value that was set", "statement": "After VehicleControl_SetDash(on) the lamp output has level on until the next call.", "quantifier": "every interleaving of lamp calls with the periodic processes", "why_tests_cant": "two modules drive the same pin only with the shipped wiring; each is tested with its own mock pin", "anchors": ["firmware/src/vcu/vehicleInterface/vehicleControl/vehicleControl.c:VehicleControl_SetDash", "firmware/src/vcu/device/dashboard_output/dashboard_output.c", "firmware/src/vcu/vehicleLogic/watchdogTrigger/watchdogTrigger.c", "firmware/src/vcu/startup/initialize.c"]}
{"id": "C74", "title": "In the fault state the ECU error line stays asserted", "statement": "From the first tick taken in the fault state on, the ECU error line is asserted, whatever the PC or the debug terminal requests.", "quantifier": "every interleaving of state-machine ticks and operator requests", "why_tests_cant": "unbounded interleavings of two tasks writing one pin", "anchors": ["firmware/src/vcu/vehicleLogic/stateManager/stateMachine.c", "firmware/src/vcu/vehicleInterface/vehicleControl/vehicleControl.c:VehicleControl_SetECUError"]}
{"id": "C75", "title": "An ECU error asserted by the operator stays asserted until the operator releases it", "statement": "After an operator request asserts the ECU error line, it stays asserted until an operator request releases it.", "quantifier": "every state of the vehicle and every driver input", "why_tests_cant": "unbounded interleavings of two tasks writing one pin", "anchors": ["firmware/src/vcu/vehicleLogic/stateManager/stateMachine.c", "firmware/src/vcu/vehicleInterface/vehicleControl/vehicleControl.c:VehicleControl_SetECUError"]}
{"id": "C76", "title": "Torque reaches the CAN bus only after the driver has selected drive", "statement": "Every command frame handed to the CAN layer has at most 500 Nm, direction forward and discharge off; a frame with non-zero torque is only ever sent after the vehicle has been in the forward drive state.", "quantifier": "every interleaving of the state-manager task and the throttle task at the granularity of shared accesses, every input history, every lock and CAN outcome", "why_tests_cant": "the claim spans three modules and two preemptive tasks; unit tests run each module alone with mocks", "anchors": ["firmware/src/vcu/vehicleLogic/stateManager/stateMachine.c:VSM_Step", "firmware/src/vcu/vehicleLogic/throttleController/throttleController.c", "firmware/src/vcu/vehicleInterface/vehicleControl/vehicleControl.c", "firmware/src/vcu/device/inverter/cInverter.c:CInverter_SendTorqueCommand"]}
{"id": "C77", "title": "No torque is commanded in the fault state", "statement": "Once the vehicle is in the fault state and has completed one step there, no command frame carries torque.", "quantifier": "every interleaving of the two tasks before and after the fault", "why_tests_cant": "depends on where the throttle task is preempted", "anchors": ["firmware/src/vcu/vehicleLogic/stateManager/stateMachine.c:VSM_Step", "firmware/src/vcu/vehicleLogic/throttleController/throttleController.c", "firmware/src/vcu/vehicleInterface/vehicleControl/vehicleControl.c", "firmware/src/vcu/device/inverter/cInverter.c:CInverter_SendTorqueCommand"]}
{"id": "C78", "title": "The inverter is commanded disabled in the fault state", "statement": "Once the vehicle is in the fault state and has completed one step there, command frames have the inverter enable bit clear.", "quantifier": "every interleaving, every history before and after the fault", "why_tests_cant": "it is about a call that is never made anywhere, over unbounded runs", "anchors": ["firmware/src/vcu/vehicleLogic/stateManager/stateMachine.c:VSM_Step", "firmware/src/vcu/vehicleLogic/throttleController/throttleController.c", "firmware/src/vcu/vehicleInterface/vehicleControl/vehicleControl.c", "firmware/src/vcu/device/inverter/cInverter.c:CInverter_SendTorqueCommand", "firmware/src/vcu/vehicleInterface/vehicleControl/vehicleControl.c:VehicleControl_DisableInverter"]}
{"id": "C79", "title": "The published GPS record is determined by the received bytes", "statement": "Two executions of the GPS task that receive the same bytes in the same batches and find the vehicle state available at the same times publish the same GPS records.", "quantifier": "every sequence of batches, every decoder state, every earlier content of the task's stack", "why_tests_cant": "a test runs one execution with one stack content; the claim compares all pairs of executions", "anchors": ["firmware/src/vcu/device/gps/gps.c:GPS_TaskMethod", "firmware/src/vcu/device/gps/gps.c:pushGPGGA", "firmware/src/system-lib/uart/nmeadecode.c:NmeaDecode_Decode"]}
{"id": "C80", "title": "The GPS task always returns to reading and always has room for the next batch", "statement": "Unless a decoder buffer is overrun, every activation of the GPS task ends, its log line fits its array, and the decoder then has room for any batch of up to 1010 bytes.", "quantifier": "every history of batches of up to 2048 bytes of any content, every lock outcome", "why_tests_cant": "termination and free space over unbounded histories of arbitrary bytes, with cursors that can run past the end of the data", "anchors": ["firmware/src/vcu/device/gps/gps.c:GPS_TaskMethod", "firmware/src/vcu/device/gps/gps.c:pushGPGGA", "firmware/src/system-lib/uart/nmeadecode.c:NmeaDecode_Decode"]}
{"id": "C81", "title": "VCU and PC tool compute the same checksum", "statement": "For every message, the PC tool's checksum function returns the number that the VCU's CRC unit computes when the firmware feeds it the message.", "quantifier": "every byte string", "why_tests_cant": "the claim is about all messages and compares hardware fed in words, halfwords and bytes with a bit-serial program", "anchors": ["firmware/src/system-lib/crc/crc.c:CRC_Calculate", "tools/ecu-config/decode_common.py:crc32mpeg2", "firmware/src/cube-proj/Core/Src/main.c:MX_CRC_Init"]}
{"id": "C82", "title": "Corruption confined to 32 consecutive bits is detected", "statement": "If a valid frame is altered only within 32 consecutive bits, it is no longer a valid frame.", "quantifier": "every frame length, every valid frame, every alteration within 32 consecutive bits", "why_tests_cant": "2^32 alterations at every position of every frame", "anchors": ["firmware/src/system-lib/crc/crc.c:CRC_Calculate", "tools/ecu-config/decode_common.py:crc32mpeg2", "firmware/src/cube-proj/Core/Src/main.c:MX_CRC_Init", "firmware/src/system-lib/uart/msgframedecode.c:verifyCrc", "firmware/src/system-lib/uart/msgframeencode.c:MsgFrameEncode_UpdateCRC"]}
{"id": "C83", "title": "The PC tool finds the same messages however the bytes arrive", "statement": "What a decoder of the PC tool hands to its handler depends only on the received bytes, not on how the reads cut them, and is the left-to-right parse by delimiters, filtered by address and type, with a correct checksum verdict.", "quantifier": "every byte stream and every way of cutting it into reads", "why_tests_cant": "all streams and all cuts", "anchors": ["tools/ecu-config/decode_common.py:MsgDecoder.recv_bytes", "tools/ecu-config/decode_common.py:MsgDecoder.decode_bytes_fixed_len", "tools/ecu-config/decode_common.py:MsgDecoder.try_decode", "tools/ecu-config/decode_common.py:MsgDecoder.handle_data", "tools/ecu-config/serial_common.py:SerialHandler.recv"]}
{"id": "C84", "title": "The PC tool shows every frame the VCU sends and nothing else", "statement": "From a stream of log frames and state frames, received without errors, the tool shows exactly the log frames and exactly the state frames, in order.", "quantifier": "every sequence of valid log and state frames with any contents, every way of cutting the stream", "why_tests_cant": "the failures need particular bytes at particular distances across frames", "anchors": ["tools/ecu-config/decode_common.py:MsgDecoder.recv_bytes", "tools/ecu-config/decode_common.py:MsgDecoder.decode_bytes_fixed_len", "tools/ecu-config/decode_common.py:MsgDecoder.try_decode", "tools/ecu-config/decode_common.py:MsgDecoder.handle_data", "tools/ecu-config/log_view.py:main"]}
{"id": "C85", "title": "Log text arrives on the PC's screen", "statement": "What the tool prints is, NUL characters aside, the text accepted by the VCU's log except what is still queued, and never in the colour of failures.", "quantifier": "every history of log calls and flushes, every interleaving with state frames, every way of cutting the stream", "why_tests_cant": "composition of log, stream, framing, checksum and tool over all histories", "anchors": ["tools/ecu-config/decode_common.py:MsgDecoder.recv_bytes", "tools/ecu-config/decode_common.py:MsgDecoder.decode_bytes_fixed_len", "tools/ecu-config/decode_common.py:MsgDecoder.try_decode", "tools/ecu-config/decode_common.py:MsgDecoder.handle_data", "tools/ecu-config/log_view.py:handle_log_data", "firmware/src/vcu/device/pcinterface/pcinterface.c:flushLogMessage"]}
{"id": "C86", "title": "Vehicle state arrives on the PC's screen", "statement": "For each broadcast the tool displays the eleven fields by name with exactly the values in the vehicle state.", "quantifier": "every vehicle state with finite values, every interleaving with log frames", "why_tests_cant": "composition over all states, with exact recovery of floats", "anchors": ["tools/ecu-config/decode_common.py:MsgDecoder.recv_bytes", "tools/ecu-config/decode_common.py:MsgDecoder.decode_bytes_fixed_len", "tools/ecu-config/decode_common.py:MsgDecoder.try_decode", "tools/ecu-config/decode_common.py:MsgDecoder.handle_data", "tools/ecu-config/log_view.py:handle_state_data", "firmware/src/vcu/device/pcinterface/periodicupdates.c:periodicStateUpdate"]}
{"id": "C87", "title": "Messages encoded on the PC are accepted by the VCU", "statement": "For every address, function and payload, the tool's encoder produces the frame the firmware would, and the firmware's decoder returns it.", "quantifier": "every 16-bit address and function, every payload that fits the decoder", "why_tests_cant": "all payloads of all lengths", "anchors": ["tools/ecu-config/encode_common.py:encode_message", "firmware/src/system-lib/uart/msgframedecode.c:MsgFrameDecode_RecvMsg"]}
{"id": "C88", "title": "The decoder for messages of any length finds a complete frame", "statement": "A valid frame received by a variable-length decoder is delivered when its last byte arrives.", "quantifier": "every valid frame", "why_tests_cant": "the claim quantifies over all frames and buffer contents", "anchors": ["tools/ecu-config/decode_common.py:MsgDecoder.decode_bytes_variable_len"]}
{"id": "C89", "title": "Configured task priorities are honoured", "statement": "Whenever a task runs, no task with a greater configured priority is ready.", "quantifier": "every set of ready tasks and every assignment of priorities", "why_tests_cant": "the scheduler's choice among ready tasks depends on timing; a test sees one schedule", "anchors": ["firmware/src/vcu/startup/initialize.c:INIT_TASK_PRIORITY", "firmware/src/vcu/vehicleLogic/watchdogTrigger/watchdogTrigger.h", "firmware/src/cube-proj/Core/Inc/FreeRTOSConfig.h:configMAX_PRIORITIES"]}
{"id": "C90", "title": "Every frame on the CAN bus was passed whole by one caller", "statement": "For every interleaving of tasks calling CAN_SendMessage on one bus, each frame the controller sends is one that a caller passed, and is sent once.", "quantifier": "every number of concurrent callers, every frame, every interleaving of register accesses and transmissions", "why_tests_cant": "needs a task switch between two particular instructions of the vendor driver", "anchors": ["firmware/src/system-lib/can/can.c:CAN_SendMessage", "firmware/src/cube-proj/Drivers/STM32F7xx_HAL_Driver/Src/stm32f7xx_hal_can.c:HAL_CAN_AddTxMessage", "firmware/src/vcu/device/pcinterface/pcinterface.c:periodicCanDebug"]}
{"id": "C91", "title": "A torque command on the bus carries a requested torque", "statement": "Every inverter command frame on the bus has the torque, direction and enable bits of some command the driver issued, whatever else is sent on that bus.", "quantifier": "every torque command, every debug counter value, every interleaving", "why_tests_cant": "the interleaving is not controllable from a test", "anchors": ["firmware/src/vcu/device/pcinterface/pcinterface.c:periodicCanDebug", "firmware/src/vcu/device/inverter/cInverter.c:SendCANCommand", "firmware/src/system-lib/can/can.c:CAN_SendMessage"]}
{"id": "C92", "title": "A copy of the vehicle data is a picture of one moment", "statement": "When VehicleState_CopyState has returned success, the members of the copy that are written under the vehicle data mutex are the values they had at one and the same moment during the call, and at that moment no other task was inside an access to the vehicle data: an update of several members is seen whole or not at all.", "quantifier": "any number of tasks, any sequence of calls of the firmware's functions that take a mutex, any values written, every interleaving at single memory accesses", "why_tests_cant": "a torn copy needs a task switch between two particular stores; a unit test has one thread", "anchors": ["firmware/src/vcu/vehicleInterface/vehicleState/vehicleState.c:VehicleState_CopyState", "firmware/src/vcu/vehicleInterface/vehicleState/vehicleState.c:VehicleState_AccessAcquire", "firmware/src/vcu/vehicleInterface/vehicleState/vehicleState.c:VehicleState_AccessRelease"]}
{"id": "C93", "title": "Tasks never deadlock on the firmware's mutexes", "statement": "Whatever the tasks have done so far, some task that is not finished can go on, all calls can be completed, and a mutex is only given by the task that holds it; a task that waits for a mutex holds none.", "quantifier": "any number of tasks, any sequence of calls, every interleaving", "why_tests_cant": "absence of deadlock is a statement about all schedules", "anchors": ["firmware/src/vcu/vehicleInterface/vehicleState/vehicleState.c:VehicleState_AccessAcquire", "firmware/src/vcu/vehicleLogic/throttleController/throttleController.c:ThrottleController_SetTorqueEnabled", "firmware/src/system-lib/crc/crc.c:CRC_Calculate", "firmware/src/system-lib/logging/logging.c:Log_Print"]}
{"id": "C94", "title": "Periodic work is done once per timer period", "statement": "Each elapsed period of the task timer makes the task's body run once, so work counted in activations (delays, time-outs, update rates) takes the configured time.", "quantifier": "every task body, every history of timer periods and task executions", "why_tests_cant": "depends on how long the task is kept from running", "anchors": ["firmware/src/system-lib/tasktimer/tasktimer.c:TaskTimer_TIM_PeriodElapsedCallback", "firmware/src/vcu/vehicleLogic/stateManager/vehicleStateManager.c:StateManagerProcessing"]}
{"id": "C95", "title": "Only fifteen measurements influence the drive decision", "statement": "Two histories of the vehicle data that agree on the accelerator and brake measurements, five battery values, the start button and the inverter's reported state give the same states, torque permission, direction, error line and lamp; GPS, wheel speeds, shutdown circuit, power channels, motor data and all other inverter and battery data have no influence.", "quantifier": "every state, every configuration, every pair of histories of any length", "why_tests_cant": "a statement about pairs of executions; a test compares finitely many", "anchors": ["firmware/src/vcu/vehicleLogic/stateManager/faultManager.c:FaultManager_Step", "firmware/src/vcu/vehicleLogic/stateManager/stateMachine.c:VSM_Step"]}
{"id": "C96", "title": "Published CAN measurements are the newest on the bus", "statement": "With the bus at 1 Mbit/s and a receive queue that is found empty at least every 12 ms, no matching frame is lost, and each time the inverter or BMS task has emptied its queue every field it publishes is the one in the most recent frame on the bus that carries it.", "quantifier": "every traffic of standard frames on all three buses, every interleaving of interrupts and reads, every arrival time within the bus speed", "why_tests_cant": "needs the worst-case traffic over unlimited time", "anchors": ["firmware/src/system-lib/can/can.c:ISR_RxMsgPendingCallback", "firmware/src/vcu/device/inverter/cInverter.c:InverterProcessing", "firmware/src/vcu/device/bms/orionBms.c:BMSProcessing", "firmware/src/vcu/device/bms/bms.h:BMS_QUEUE_LENGTH"]}
{"id": "C97", "title": "State machine delays are never shorter than configured", "statement": "Whatever the load, the vehicle leaves HV_ACTIVE for HV_CHARGING only after at least the configured wait, and HV_CHARGING for FAULT without a reported fault only after more than the configured timeout, in elapsed timer periods.", "quantifier": "every configuration, every history of timer periods and task executions (fewer than 2^32 waiting notifications), every input", "why_tests_cant": "quantifies over schedules and over all values of the delays including those that overflow", "anchors": ["firmware/src/vcu/vehicleLogic/stateManager/stateMachine.c:VSM_Step", "firmware/src/vcu/vehicleLogic/stateManager/vehicleStateManager.c:StateManagerProcessing", "firmware/src/system-lib/tasktimer/tasktimer.c:TaskTimer_TIM_PeriodElapsedCallback"]}
{"id": "C98", "title": "Stream buffers are byte queues", "statement": "If sends to a stream buffer do not overlap, what has been received followed by what the buffer holds is what has been sent, with nothing lost, repeated or reordered; a send takes the longest prefix that fits into one byte less than the storage; a receive takes the oldest bytes; the free-space, fill and empty queries are truthful; no access leaves the storage.", "quantifier": "every storage size and initial content, every sequence of sends and receives, every interleaving of sender and receiver at single bytes", "why_tests_cant": "wrap-around positions times interleavings of two lock-free parties", "anchors": ["firmware/src/cube-proj/Lib/FreeRTOS/Source/stream_buffer.c:xStreamBufferSend", "firmware/src/cube-proj/Lib/FreeRTOS/Source/stream_buffer.c:xStreamBufferReceive", "firmware/src/cube-proj/Lib/FreeRTOS/Source/stream_buffer.c:prvWriteBytesToBuffer", "firmware/src/cube-proj/Lib/FreeRTOS/Source/stream_buffer.c:prvReadBytesFromBuffer", "firmware/src/cube-proj/Lib/FreeRTOS/Source/stream_buffer.c:xStreamBufferSpacesAvailable"]}
{"id": "C99", "title": "Log_Print returns for every string", "statement": "Printing any string returns to the caller.", "quantifier": "every string, every fill level of the log stream, serial logging on or off", "why_tests_cant": "no call in the firmware passes an empty string, so no test of the firmware meets the case", "anchors": ["firmware/src/system-lib/logging/logging.c:Log_Print", "firmware/src/cube-proj/Lib/FreeRTOS/Source/stream_buffer.c:prvWriteBytesToBuffer"]}
{"id": "C100", "title": "Kernel queues are first in, first out", "statement": "A queue reports exactly what a list of at most its length would: a send is refused exactly when the queue is full, a receive gives the oldest item byte for byte or nothing when empty, the emptiness test is truthful, and no access leaves the storage.", "quantifier": "every queue length, item size and initial storage, every sequence of sends and receives", "why_tests_cant": "unbounded sequences over all lengths; positions wrap", "anchors": ["firmware/src/cube-proj/Lib/FreeRTOS/Source/queue.c:xQueueGenericSend", "firmware/src/cube-proj/Lib/FreeRTOS/Source/queue.c:xQueueReceive", "firmware/src/cube-proj/Lib/FreeRTOS/Source/queue.c:prvCopyDataToQueue", "firmware/src/cube-proj/Lib/FreeRTOS/Source/queue.c:prvCopyDataFromQueue"]}
{"id": "C101", "title": "Kernel critical sections exclude each other", "statement": "However interrupts arrive and nest, at most one task or interrupt handler is inside a kernel critical section at a time, no kernel assertion about interrupts fails, a handler that interrupts an open section never calls the kernel, and interrupts are held back only while a section is open.", "quantifier": "every sequence of the enabled interrupts, nested to any depth, and every placement of the tasks' and handlers' kernel calls", "why_tests_cant": "the interrupt timing cannot be enumerated; a collision would show once in a long run", "anchors": ["firmware/src/cube-proj/Lib/FreeRTOS/Source/portable/GCC/ARM_CM7/r0p1/port.c:vPortEnterCritical", "firmware/src/cube-proj/Lib/FreeRTOS/Source/portable/GCC/ARM_CM7/r0p1/port.c:vPortExitCritical", "firmware/src/cube-proj/Lib/FreeRTOS/Source/portable/GCC/ARM_CM7/r0p1/port.c:vPortValidateInterruptPriority", "firmware/src/cube-proj/Lib/FreeRTOS/Source/portable/GCC/ARM_CM7/r0p1/port.c:xPortPendSVHandler", "firmware/src/cube-proj/Core/Src/main.c:MX_DMA_Init", "firmware/src/cube-proj/Core/Src/stm32f7xx_hal_msp.c:HAL_CAN_MspInit", "firmware/src/cube-proj/Core/Src/stm32f7xx_hal_msp.c:HAL_UART_MspInit"]}
{"id": "C102", "title": "Timed waits end on time", "statement": "A task that waits for n ticks (1 to 2^32-2) and gets no event is woken by exactly the n-th following tick, tasks due at the same tick in the order in which they began to wait, whatever the value of the 32-bit tick counter, across any number of its wrap-arounds and whatever other tasks and events do; a wait without limit never ends by itself.", "quantifier": "every initial counter value, every sequence of ticks, waits of any length and events, any number of tasks", "why_tests_cant": "the counter wraps only after 49 days; all interleavings of waits around the wrap cannot be enumerated", "anchors": ["firmware/src/cube-proj/Lib/FreeRTOS/Source/tasks.c:xTaskIncrementTick", "firmware/src/cube-proj/Lib/FreeRTOS/Source/tasks.c:prvAddCurrentTaskToDelayedList", "firmware/src/cube-proj/Lib/FreeRTOS/Source/tasks.c:prvResetNextTaskUnblockTime", "firmware/src/cube-proj/Lib/FreeRTOS/Source/tasks.c:xTaskRemoveFromEventList", "firmware/src/cube-proj/Lib/FreeRTOS/Source/list.c:vListInsert"]}
{"id": "C103", "title": "Serial traffic from the PC has no influence on torque", "statement": "Whatever bytes arrive from the PC, in whatever batches and at whatever moment of the other tasks' work, and whatever actions they cause, every command frame sent to the inverter, the state of the state machine, torque enable, direction, inverter mode and all vehicle data except the power channel states are the same as if the PC had sent nothing. The PC can change only the ECU error line and the power channel outputs.", "quantifier": "every history of vehicle data, task interleaving and PC bytes, every configuration, provided the terminal does not corrupt memory (C42)", "why_tests_cant": "two whole histories have to be compared, for all interleavings and byte streams", "anchors": ["firmware/src/vcu/device/pcinterface/requests.c:PCInterface_HandleRequests", "firmware/src/vcu/device/pcinterface/debugterm.c:PCInterface_DebugTermRecv", "firmware/src/vcu/vehicleInterface/vehicleControl/vehicleControl.c:VehicleControl_SetPowerChannel", "firmware/src/vcu/device/pdm/pdm.c:PDM_SetOutputEnabled", "firmware/src/vcu/vehicleLogic/stateManager/stateMachine.c:VSM_Step", "firmware/src/vcu/vehicleLogic/throttleController/throttleController.c:ThrottleController_SetTorqueEnabled"]}
{"id": "C104", "title": "A drive fault in the vehicle data ends torque on the bus", "statement": "Once the vehicle data copied by the state manager contain a documented drive fault, two further completed steps of the state manager suffice: the state machine is then in the fault state for good and of all later inverter command frames at most the first, by a throttle activation already in progress, carries torque.", "quantifier": "every configuration with representable limits, every history of vehicle data, every interleaving of state manager, throttle and PC interface at every shared access, every outcome of locks and CAN transmissions", "why_tests_cant": "the reaction spans three tasks, the fault timers and the CAN driver; interleavings and data histories are unbounded", "anchors": ["firmware/src/vcu/vehicleLogic/stateManager/faultManager.c:FaultManager_Step", "firmware/src/vcu/vehicleLogic/stateManager/stateMachine.c:VSM_Step", "firmware/src/vcu/vehicleLogic/stateManager/vehicleStateManager.c:StateManagerProcessing", "firmware/src/vcu/vehicleLogic/throttleController/throttleController.c:ThrottleController_SetTorqueEnabled", "firmware/src/vcu/device/inverter/cInverter.c:CInverter_SendTorqueCommand"]}
{"id": "C105", "title": "The kernel's linked lists are sequences", "statement": "Used as the kernel uses them (an item is inserted only while it is in no list and removed only while it is in one, the next item is taken only from a list that has one), the lists of the kernel always read the same along the forward and the backward links, hold exactly the items that name them as their container, count them correctly, and every operation ends and answers what it would on a sequence. Operations on one list leave the others alone. A list into which items are inserted by value only is sorted, with equal values in order of arrival.", "quantifier": "every number of lists and items, every initial memory content, every history of operations", "why_tests_cant": "the links after a history depend on all of it; tests sample histories", "anchors": ["firmware/src/cube-proj/Lib/FreeRTOS/Source/list.c:vListInsertEnd", "firmware/src/cube-proj/Lib/FreeRTOS/Source/list.c:vListInsert", "firmware/src/cube-proj/Lib/FreeRTOS/Source/list.c:uxListRemove", "firmware/src/cube-proj/Lib/FreeRTOS/Source/list.c:vListInitialise", "firmware/src/cube-proj/Lib/FreeRTOS/Source/include/list.h:listGET_OWNER_OF_NEXT_ENTRY"]}
{"id": "C106", "title": "A context switch picks the highest task that can run", "statement": "Whatever tasks are created, block, end, are woken by ticks, events and interrupts, inherit and give back priorities, with the scheduler suspended or not: every context switch gives the processor to a task that can run, and no task that can run has a higher priority at that moment. The search never leaves the array of lists and its assertion never fails.", "quantifier": "every set of tasks and priorities, every history of kernel events of the kinds the firmware causes", "why_tests_cant": "the bit map, the lists and the priorities have to agree after every history, and histories are unbounded", "anchors": ["firmware/src/cube-proj/Lib/FreeRTOS/Source/tasks.c:vTaskSwitchContext", "firmware/src/cube-proj/Lib/FreeRTOS/Source/tasks.c:taskSELECT_HIGHEST_PRIORITY_TASK", "firmware/src/cube-proj/Lib/FreeRTOS/Source/tasks.c:prvAddTaskToReadyList", "firmware/src/cube-proj/Lib/FreeRTOS/Source/tasks.c:prvAddCurrentTaskToDelayedList", "firmware/src/cube-proj/Lib/FreeRTOS/Source/tasks.c:xTaskPriorityInherit", "firmware/src/cube-proj/Lib/FreeRTOS/Source/tasks.c:xTaskPriorityDisinherit", "firmware/src/cube-proj/Lib/FreeRTOS/Source/tasks.c:vTaskPriorityDisinheritAfterTimeout", "firmware/src/cube-proj/Lib/FreeRTOS/Source/portable/GCC/ARM_CM7/r0p1/portmacro.h:portGET_HIGHEST_PRIORITY"]}
{"id": "C107", "title": "Tasks of equal priority take turns", "statement": "A task that can run stays among the next 2N-1 tasks picked at its priority, if at no time more than N tasks of that priority can run; tasks that come and go meanwhile do not push it back. Every tick that leaves another task of the running priority able to run asks for a switch.", "quantifier": "every set of tasks and every history of kernel events in which the task stays able to run at the same priority", "why_tests_cant": "fairness is a statement about all continuations", "anchors": ["firmware/src/cube-proj/Lib/FreeRTOS/Source/tasks.c:taskSELECT_HIGHEST_PRIORITY_TASK", "firmware/src/cube-proj/Lib/FreeRTOS/Source/tasks.c:xTaskIncrementTick", "firmware/src/cube-proj/Lib/FreeRTOS/Source/include/list.h:listGET_OWNER_OF_NEXT_ENTRY", "firmware/src/cube-proj/Lib/FreeRTOS/Source/list.c:vListInsertEnd", "firmware/src/cube-proj/Lib/FreeRTOS/Source/list.c:uxListRemove"]}
{"id": "C108", "title": "A task never keeps the processor from a higher one beyond the next tick", "statement": "Whenever no switch has been asked for and none is owed, the running task is one that can run and none that can run has a higher priority. A tick turns every owed switch into a request. If in addition every interrupt routine passes the wish to switch on, no switch is ever only owed while the scheduler is running: there is no delay at all.", "quantifier": "every set of tasks and every history of kernel events", "why_tests_cant": "a missed request shows only in one interleaving of interrupts, suspended scheduler and priority changes", "anchors": ["firmware/src/cube-proj/Lib/FreeRTOS/Source/tasks.c:xTaskIncrementTick", "firmware/src/cube-proj/Lib/FreeRTOS/Source/tasks.c:xTaskResumeAll", "firmware/src/cube-proj/Lib/FreeRTOS/Source/tasks.c:xTaskRemoveFromEventList", "firmware/src/cube-proj/Lib/FreeRTOS/Source/tasks.c:vTaskNotifyGiveFromISR", "firmware/src/cube-proj/Lib/FreeRTOS/Source/tasks.c:vTaskSwitchContext", "firmware/src/system-lib/spi/spi.c:vTaskNotifyGiveFromISR", "firmware/src/vcu/device/sdc/sdc.c:vTaskNotifyGiveFromISR"]}
{"id": "C109", "title": "Nobody sleeps on a stream buffer that has what they wait for", "statement": "A task that sleeps in a receive call is there only while the buffer holds less than the trigger level, or while a writing task has already added the bytes and tells the reader in its next steps; a task that sleeps in a send call is there only while there is not enough room, or while a reading task tells it in its next step. Notifications given to a task that does not take them add up exactly. With an interrupt as the writer and no other use of the reader's notification, a receive call that ends before its time is up returns at least one byte. A send call returns having sent everything unless its time was up.", "quantifier": "every capacity, trigger level and initial notification state, every interleaving of one reader and one writer (tasks or interrupts) at the granularity of the kernel's critical sections, with any other notifications in between", "why_tests_cant": "the window between looking at the buffer and going to sleep is a few instructions wide", "anchors": ["firmware/src/cube-proj/Lib/FreeRTOS/Source/stream_buffer.c:xStreamBufferSend", "firmware/src/cube-proj/Lib/FreeRTOS/Source/stream_buffer.c:xStreamBufferReceive", "firmware/src/cube-proj/Lib/FreeRTOS/Source/stream_buffer.c:xStreamBufferSendFromISR", "firmware/src/cube-proj/Lib/FreeRTOS/Source/stream_buffer.c:xStreamBufferReceiveFromISR", "firmware/src/cube-proj/Lib/FreeRTOS/Source/stream_buffer.c:sbSEND_COMPLETED", "firmware/src/cube-proj/Lib/FreeRTOS/Source/stream_buffer.c:sbRECEIVE_COMPLETED", "firmware/src/cube-proj/Lib/FreeRTOS/Source/tasks.c:xTaskNotifyWait", "firmware/src/cube-proj/Lib/FreeRTOS/Source/tasks.c:xTaskNotifyStateClear", "firmware/src/cube-proj/Lib/FreeRTOS/Source/tasks.c:xTaskGenericNotify", "firmware/src/cube-proj/Lib/FreeRTOS/Source/tasks.c:ulTaskNotifyTake"]}
{"id": "C110", "title": "No wake-up of a queue or mutex is lost", "statement": "While the scheduler is not held by a task that is on its way to sleep, a task asleep on a queue means that every message (or free place) it could use is covered by another task that has been woken for it and has not looked yet; if there is none, the queue is empty (or full). In particular a free mutex for which a task sleeps has a woken taker. Tasks are woken highest priority first, tasks of equal priority in order of arrival. A call fails only after its time is up or if it was told not to wait. A call that reports success has moved exactly one message, a call that reports failure none.", "quantifier": "every number of tasks with any priorities, every queue of at most 127 places that interrupts only fill or only empty, every interleaving of the calls' critical sections, interrupts and expiring waits", "why_tests_cant": "the interrupt that arrives while the queue is locked leaves only a count behind; losing one shows as a task that never wakes up in one interleaving", "anchors": ["firmware/src/cube-proj/Lib/FreeRTOS/Source/queue.c:xQueueGenericSend", "firmware/src/cube-proj/Lib/FreeRTOS/Source/queue.c:xQueueGenericSendFromISR", "firmware/src/cube-proj/Lib/FreeRTOS/Source/queue.c:xQueueReceive", "firmware/src/cube-proj/Lib/FreeRTOS/Source/queue.c:xQueueSemaphoreTake", "firmware/src/cube-proj/Lib/FreeRTOS/Source/queue.c:xQueueReceiveFromISR", "firmware/src/cube-proj/Lib/FreeRTOS/Source/queue.c:prvUnlockQueue", "firmware/src/cube-proj/Lib/FreeRTOS/Source/queue.c:prvLockQueue", "firmware/src/cube-proj/Lib/FreeRTOS/Source/queue.c:prvIsQueueEmpty", "firmware/src/cube-proj/Lib/FreeRTOS/Source/queue.c:prvIsQueueFull"]}
{"id": "C111", "title": "A woken task can run, a sleeping one cannot", "statement": "A task that is woken (by an interrupt, another task, a mutex given back, or the end of its time, also of ticks that passed while the scheduler was suspended) can run from then on, at the latest when the scheduler is not suspended, until it calls a blocking function itself or ends; every context switch meanwhile goes to a task of at least its priority, and to itself if it is the only one that high. A task that has called a blocking function cannot run before an event that names it. Nothing but its own call to wait or to end takes a task off the processor's list.", "quantifier": "every set of tasks and every history of kernel events", "why_tests_cant": "a wake-up that is lost in the pending list shows only in one interleaving", "anchors": ["firmware/src/cube-proj/Lib/FreeRTOS/Source/tasks.c:xTaskRemoveFromEventList", "firmware/src/cube-proj/Lib/FreeRTOS/Source/tasks.c:xTaskResumeAll", "firmware/src/cube-proj/Lib/FreeRTOS/Source/tasks.c:xTaskIncrementTick", "firmware/src/cube-proj/Lib/FreeRTOS/Source/tasks.c:xTaskGenericNotify", "firmware/src/cube-proj/Lib/FreeRTOS/Source/tasks.c:vTaskNotifyGiveFromISR", "firmware/src/cube-proj/Lib/FreeRTOS/Source/tasks.c:prvAddCurrentTaskToDelayedList"]}
{"id": "C112", "title": "A call with a time limit gives up when the limit has passed, not before", "statement": "A blocking kernel call with a limit of n ticks may be woken and find nothing any number of times; it never gives up before n ticks have passed since it began, a look at its time after n ticks or more makes it give up, and a queue or mutex call is awake by then. Unless an event comes it sleeps through until then. All this holds wherever the 32-bit tick counter stands and wraps. A call without limit never gives up.", "quantifier": "every n from 1 to 2^32-2, every starting value of the tick counter, every history of ticks, events and other tasks' waits shorter than 2^32 ticks", "why_tests_cant": "the counter wraps after 49 days; repeated wake-ups at awkward moments are not sampled by tests", "anchors": ["firmware/src/cube-proj/Lib/FreeRTOS/Source/tasks.c:xTaskCheckForTimeOut", "firmware/src/cube-proj/Lib/FreeRTOS/Source/tasks.c:vTaskSetTimeOutState", "firmware/src/cube-proj/Lib/FreeRTOS/Source/tasks.c:vTaskInternalSetTimeOutState", "firmware/src/cube-proj/Lib/FreeRTOS/Source/queue.c:xQueueGenericSend", "firmware/src/cube-proj/Lib/FreeRTOS/Source/queue.c:xQueueReceive", "firmware/src/cube-proj/Lib/FreeRTOS/Source/queue.c:xQueueSemaphoreTake", "firmware/src/cube-proj/Lib/FreeRTOS/Source/stream_buffer.c:xStreamBufferSend"]}
{"id": "C113", "title": "Every CAN bus is heard completely after start-up", "statement": "When the start-up code has configured the three CAN buses successfully, every standard and extended frame with any identifier on each of them is received and raises the receive interrupt. (The order matters: bus 1 hears nothing unless bus 2 is configured later.)", "quantifier": "every frame header, every previous content of the filter registers, every sequence of configuration calls", "why_tests_cant": "whether a filter lets all 2^29 identifiers pass on all three peripherals cannot be sampled, and the shared registers are not part of a host test", "anchors": ["firmware/src/system-lib/can/can.c:CAN_Config", "firmware/src/cube-proj/Drivers/STM32F7xx_HAL_Driver/Src/stm32f7xx_hal_can.c:HAL_CAN_ConfigFilter", "firmware/src/cube-proj/Drivers/STM32F7xx_HAL_Driver/Src/stm32f7xx_hal_can.c:HAL_CAN_Start", "firmware/src/vcu/startup/initialize.c:ECU_Init_BoardPeriph"]}
{"id": "C114", "title": "A frame the CAN driver accepts reaches the bus despite other nodes' traffic", "statement": "If a call to send a CAN frame returns OK, the frame appears on the bus, also if another node happens to send a frame of higher priority at the same moment or a transmission is disturbed. (False as shipped: automatic retransmission is off, so a frame that loses one arbitration is dropped, and no call ever shows it.)", "quantifier": "every sequence of calls and bus events", "why_tests_cant": "tests run without other nodes; losing an arbitration takes a coincidence of microseconds", "anchors": ["firmware/src/system-lib/can/can.c:CAN_SendMessage", "firmware/src/cube-proj/Core/Src/main.c:MX_CAN1_Init", "firmware/src/cube-proj/Core/Src/main.c:MX_CAN2_Init", "firmware/src/cube-proj/Core/Src/main.c:MX_CAN3_Init", "firmware/src/cube-proj/Drivers/STM32F7xx_HAL_Driver/Src/stm32f7xx_hal_can.c:HAL_CAN_Init"]}
{"id": "C115", "title": "Communication resumes after a disturbance of the bus", "statement": "After a disturbance (a short circuit, a loose connector) ends, frames the VCU sends appear on the bus again without a restart. (False as shipped: 32 disturbed transmissions in a row end sending until reset, because automatic bus-off recovery is off and the firmware has no other.)", "quantifier": "every disturbance and every later history", "why_tests_cant": "needs electrical faults of a certain length at a certain moment", "anchors": ["firmware/src/cube-proj/Core/Src/main.c:MX_CAN1_Init", "firmware/src/cube-proj/Drivers/STM32F7xx_HAL_Driver/Src/stm32f7xx_hal_can.c:HAL_CAN_Init", "firmware/src/system-lib/can/can.c:CAN_SendMessage"]}
{"id": "C116", "title": "Commands appear on the bus in the order given", "statement": "Two frames with the same identifier, accepted by two successive calls, appear on the bus in the order of the calls, so that the last command the receiver sees is the last one given. (False as shipped when frames queue up behind other traffic: the hardware prefers the lower mailbox, not the older request.)", "quantifier": "every sequence of calls and bus events", "why_tests_cant": "needs three frames queued at the moment one leaves", "anchors": ["firmware/src/cube-proj/Core/Src/main.c:MX_CAN1_Init", "firmware/src/cube-proj/Drivers/STM32F7xx_HAL_Driver/Src/stm32f7xx_hal_can.c:HAL_CAN_AddTxMessage", "firmware/src/system-lib/can/can.c:CAN_SendMessage", "firmware/src/vcu/device/inverter/cInverter.c:SendCANCommand"]}
{"id": "C117", "title": "Received CAN frames are delivered whole and in order", "statement": "Every frame the CAN driver delivers is a frame that was on the bus, with its own identifier (standard frames), length and data, in bus order and once, even if other frames arrive while it is being read out. Frames are lost only if the hardware overruns; the newest frame is delivered in any case; and there is no overrun if each frame is delivered within 141 bit times of its arrival, however busy the bus is.", "quantifier": "every interleaving of arriving frames with single register accesses of the service routine, every content", "why_tests_cant": "a frame has to arrive between two register reads; host tests stub the vendor driver", "anchors": ["firmware/src/system-lib/can/can.c:ISR_RxMsgPendingCallback", "firmware/src/cube-proj/Drivers/STM32F7xx_HAL_Driver/Src/stm32f7xx_hal_can.c:HAL_CAN_GetRxMessage", "firmware/src/cube-proj/Drivers/STM32F7xx_HAL_Driver/Src/stm32f7xx_hal_can.c:HAL_CAN_GetRxFifoFillLevel", "firmware/src/cube-proj/Drivers/STM32F7xx_HAL_Driver/Src/stm32f7xx_hal_can.c:HAL_CAN_IRQHandler", "firmware/src/cube-proj/Core/Src/main.c:MX_CAN1_Init"]}
{"id": "C118", "title": "Intervals have their nominal length", "statement": "With a 16 MHz crystal the kernel tick is 1 ms, the task timer fires every 10 ms, wheel speed is sampled 2000 times a second, and CAN runs at 1 Mbit/s; a crystal that is off changes all of them in proportion, so that task timer, sampling and tick never drift against each other. Serial line rates are within the rounding of the divider.", "quantifier": "every crystal frequency, every baud rate and peripheral clock, every permitted PLL setting", "why_tests_cant": "a test on one board sees one crystal; host tests have no clocks", "anchors": ["firmware/src/cube-proj/Core/Src/main.c:SystemClock_Config", "firmware/src/cube-proj/Core/Src/main.c:MX_TIM2_Init", "firmware/src/cube-proj/Core/Src/main.c:MX_TIM3_Init", "firmware/src/cube-proj/Core/Src/main.c:MX_CAN1_Init", "firmware/src/cube-proj/Drivers/STM32F7xx_HAL_Driver/Src/stm32f7xx_hal_rcc.c:HAL_RCC_GetSysClockFreq", "firmware/src/cube-proj/Drivers/STM32F7xx_HAL_Driver/Src/stm32f7xx_hal_uart.c:UART_SetConfig", "firmware/src/cube-proj/Core/Src/stm32f7xx_hal_timebase_tim.c:HAL_InitTick", "firmware/src/cube-proj/Lib/FreeRTOS/Source/portable/GCC/ARM_CM7/r0p1/port.c:vPortSetupTimerInterrupt"]}
{"id": "C119", "title": "A task that holds a mutex is lent the priorities it needs, and no more", "statement": "If at most one mutex is waited for with a time limit, no history of taking, waiting, timing out and giving back makes an assertion of the kernel fail or spoils its lists; a task that holds no mutex is at its own priority; a priority above its own is that of a task that waits for the mutex it holds, or has just stopped waiting; and the holder of the mutex with the time limit is never below a task that waits for it. The same holds for the holder of every mutex, and no task between the two keeps the holder from running, unless some mutex was given back by a task whose lender had timed out, to a waiting task not above its own priority.", "quantifier": "every set of tasks and priorities, every number of mutexes, every history of mutex calls and kernel events", "why_tests_cant": "lent priorities depend on the order in which tasks wait, time out and run", "anchors": ["firmware/src/cube-proj/Lib/FreeRTOS/Source/tasks.c:xTaskPriorityInherit", "firmware/src/cube-proj/Lib/FreeRTOS/Source/tasks.c:xTaskPriorityDisinherit", "firmware/src/cube-proj/Lib/FreeRTOS/Source/tasks.c:vTaskPriorityDisinheritAfterTimeout", "firmware/src/cube-proj/Lib/FreeRTOS/Source/queue.c:xQueueSemaphoreTake", "firmware/src/cube-proj/Lib/FreeRTOS/Source/queue.c:prvGetDisinheritPriorityAfterTimeout", "firmware/src/cube-proj/Lib/FreeRTOS/Source/queue.c:prvCopyDataToQueue", "firmware/src/system-lib/logging/logging.c:xSemaphoreTake"]}
{"id": "C120", "title": "A task that loses the processor does not notice", "statement": "If stacks, control blocks and the main stack do not overlap and the running task has room on its stack for what a switch writes there, a task that is switched away from and gets the processor back, whatever other tasks run, are created or are switched to meanwhile, continues with all core registers, the status register, the stack pointer, the interrupt mask, the floating point registers and their status register if it uses them, and every used word of its stack exactly as they were. A task that runs for the first time starts at its function with its parameter, interrupts open, on an empty stack aligned to eight bytes inside the array it was given. The handler never gets stuck or returns anywhere but to a task.", "quantifier": "for all layouts of memory without overlap, all numbers of tasks and times of creation, all computations of the tasks between switches, all sequences of switches with every choice of the next task, tasks that use floating point and tasks that do not, odd and even stack pointers", "why_tests_cant": "the handlers are assembly together with what the processor does by itself (frames, alignment, deferred saving of floating point registers); a host build has none of it, and on the target a lost register shows only when the switch falls on an instruction that needs it", "anchors": ["firmware/src/cube-proj/Lib/FreeRTOS/Source/portable/GCC/ARM_CM7/r0p1/port.c:xPortPendSVHandler", "firmware/src/cube-proj/Lib/FreeRTOS/Source/portable/GCC/ARM_CM7/r0p1/port.c:vPortSVCHandler", "firmware/src/cube-proj/Lib/FreeRTOS/Source/portable/GCC/ARM_CM7/r0p1/port.c:pxPortInitialiseStack", "firmware/src/cube-proj/Lib/FreeRTOS/Source/portable/GCC/ARM_CM7/r0p1/port.c:prvPortStartFirstTask", "firmware/src/cube-proj/Lib/FreeRTOS/Source/tasks.c:prvInitialiseNewTask", "firmware/src/cube-proj/Lib/FreeRTOS/Source/tasks.c:vTaskSwitchContext"]}
{"id": "C121", "title": "Heap memory stays between the program's data and the main stack", "statement": "As long as no more is given back than is in use, every request for heap memory is met at the present end of the heap if the result ends at least 1 KiB below the end of the memory, and refused without effect otherwise; so what is handed out never reaches into the program's data or the part kept for the main stack, blocks do not overlap, and the first 512 bytes can always be had. Giving back more than is in use is not refused: the next request is then given the program's own data.", "quantifier": "for all places the linker can put the end of the program's data, all sequences of requests that a signed word can hold", "why_tests_cant": "the boundaries are linker symbols that exist only in the target image, and the addition wraps for some of the 2^32 increments", "anchors": ["firmware/src/cube-proj/Core/Src/sysmem.c:_sbrk", "firmware/src/cube-proj/STM32F767ZITX_FLASH.ld:_Min_Stack_Size"]}
{"id": "C122", "title": "No activation of a task is lost or made up", "statement": "However notifications of a task, its calls to wait for them, time-outs and suspensions of the scheduler fall together, no kernel assertion fails; every notification is accounted for by the result of exactly one call or is still counted; the calls that return with a count are never more than the notifications; a task never sleeps while a notification waits for it; a notification makes a sleeping task able to run, at once or when the scheduler resumes; without a notification or time-out it goes on sleeping; and the next call to return after a notification reports it, unless 2^32 pile up.", "quantifier": "for all sequences of waits, notifications from interrupts and tasks, time-outs, and suspensions of the scheduler", "why_tests_cant": "a notification can come between any two instructions of the waiting task; tests cannot place interrupts at all those points", "anchors": ["firmware/src/cube-proj/Lib/FreeRTOS/Source/tasks.c:ulTaskNotifyTake", "firmware/src/cube-proj/Lib/FreeRTOS/Source/tasks.c:vTaskNotifyGiveFromISR", "firmware/src/cube-proj/Lib/FreeRTOS/Source/tasks.c:xTaskResumeAll", "firmware/src/system-lib/tasktimer/tasktimer.c:vTaskNotifyGiveFromISR"]}
{"id": "C123", "title": "Torque ends within three timer periods of a fault", "statement": "Let the timer that releases the state manager and the throttle task have period P and let both tasks finish each activation before the next interrupt. If the vehicle data show a documented drive fault, of the kind that counts after n consecutive samples, from a time t on for n+1 periods, then no command frame handed to the CAN layer at or after t + (n+2) P carries torque: 30 ms for a fault that counts at once. This holds for every interleaving within the periods and any traffic from the PC.", "quantifier": "for all configurations, all documented drive faults, all times of onset, all interleavings of the tasks' accesses within the periods, all histories before and after", "why_tests_cant": "the worst case needs the fault to appear at a particular instant between the accesses of two tasks; tests sample a few", "anchors": ["firmware/src/vcu/vehicleLogic/stateManager/vehicleStateManager.c:StateManagerProcessing", "firmware/src/vcu/vehicleLogic/stateManager/stateMachine.c:VSM_Step", "firmware/src/vcu/vehicleLogic/throttleController/throttleController.c:ThrottleController", "firmware/src/vcu/vehicleLogic/stateManager/faultManager.c:FaultManager_Step", "firmware/src/system-lib/tasktimer/tasktimer.c:TaskTimer_TIM_PeriodElapsedCallback"]}
{"id": "C124", "title": "Start-up wires every pin to its role and drives nothing high", "statement": "Configuring pins changes exactly the pins named, in the way asked, whatever the registers held; the levels of outputs are not affected. After start-up every pin of the board has the direction, output type, pull and alternate function its role needs, the five interrupt lines listen to the rising edge of their pin, and every other pin and line is as before. From reset on, every pin that is an output at any moment of the start-up is low at that moment, so no power switch closes by itself. Writing, toggling and reading a pin touch that pin only.", "quantifier": "for all register contents, all pin masks and configurations, every moment of the start-up", "why_tests_cant": "depends on bit positions in eight registers of eight ports and on the order of more than seventy register updates; host tests replace the HAL", "anchors": ["firmware/src/cube-proj/Core/Src/main.c:MX_GPIO_Init", "firmware/src/cube-proj/Core/Src/stm32f7xx_hal_msp.c:HAL_UART_MspInit", "firmware/src/cube-proj/Core/Src/stm32f7xx_hal_msp.c:HAL_ADC_MspInit", "firmware/src/cube-proj/Drivers/STM32F7xx_HAL_Driver/Src/stm32f7xx_hal_gpio.c:HAL_GPIO_Init", "firmware/src/cube-proj/Drivers/STM32F7xx_HAL_Driver/Src/stm32f7xx_hal_gpio.c:HAL_GPIO_WritePin", "firmware/src/cube-proj/Drivers/STM32F7xx_HAL_Driver/Src/stm32f7xx_hal_gpio.c:HAL_GPIO_TogglePin"]}
{"id": "C125", "title": "Every DMA stream is configured when it is first used", "statement": "After start-up each of the nine DMA streams (ADC, three UARTs, I2C) carries the channel, direction, width, address increment and mode its peripheral needs, so that starting a transfer moves the data of that peripheral.", "quantifier": "for all prior register contents, all nine streams", "why_tests_cant": "the configuration calls report success whatever happens; only the order of clock enable and configuration on the target decides, which host tests do not have", "anchors": ["firmware/src/cube-proj/Core/Src/main.c:MX_DMA_Init", "firmware/src/cube-proj/Core/Src/main.c:main", "firmware/src/cube-proj/Core/Src/stm32f7xx_hal_msp.c:HAL_UART_MspInit", "firmware/src/cube-proj/Core/Src/stm32f7xx_hal_msp.c:HAL_ADC_MspInit", "firmware/src/cube-proj/Core/Src/stm32f7xx_hal_msp.c:HAL_I2C_MspInit", "firmware/src/cube-proj/Drivers/STM32F7xx_HAL_Driver/Src/stm32f7xx_hal_dma.c:HAL_DMA_Init", "firmware/src/cube-proj/Drivers/STM32F7xx_HAL_Driver/Src/stm32f7xx_hal_dma.c:HAL_DMA_Start_IT"]}
{"id": "C126", "title": "Global objects have their initial values when the program begins", "statement": "From reset, whatever the registers and the RAM hold, the start-up code reaches the program without a fault: every initialised global object then holds its initial value, every other global object is zero, every other word of memory is unchanged, and the stack pointer is at the top of the RAM, aligned and above all objects by at least the reserved heap and stack. This holds for every image the linker accepts, of any size, including images without initialised or without zeroed objects.", "quantifier": "for all section sizes the linker script accepts, all memory and register contents at reset", "why_tests_cant": "assembly that runs before any test harness and only on the target; its loops depend on symbols the linker computes", "anchors": ["firmware/src/cube-proj/Core/Startup/startup_stm32f767zitx.s:Reset_Handler", "firmware/src/cube-proj/STM32F767ZITX_FLASH.ld:_estack", "firmware/src/cube-proj/STM32F767ZITX_FLASH.ld:_sidata", "firmware/src/cube-proj/STM32F767ZITX_FLASH.ld:_ebss"]}
{"id": "C127", "title": "Every enabled interrupt reaches the code for its device, at its level", "statement": "Each interrupt is enabled by the number that is its place in the vector table. At any time after start-up, whatever the drivers hold back, an enabled interrupt has a handler of its own, never the endless loop for unexpected interrupts; the handler looks at every device in use that can raise the interrupt and at no other device. Every device in use is heard. From reset on, at every moment of the start-up and afterwards, an enabled interrupt preempts at the level intended for it.", "quantifier": "for all interrupt numbers, all moments of the start-up, all sequences of driver calls afterwards, all prior contents of the grouping register", "why_tests_cant": "ties together assembly, generated code, a vendor header and bit arithmetic on registers; a wrong entry shows only when that interrupt occurs on the target", "anchors": ["firmware/src/cube-proj/Core/Startup/startup_stm32f767zitx.s:g_pfnVectors", "firmware/src/cube-proj/Core/Src/stm32f7xx_it.c:EXTI15_10_IRQHandler", "firmware/src/cube-proj/Core/Src/stm32f7xx_hal_msp.c:HAL_CAN_MspInit", "firmware/src/cube-proj/Core/Src/main.c:MX_DMA_Init", "firmware/src/cube-proj/Drivers/STM32F7xx_HAL_Driver/Src/stm32f7xx_hal_cortex.c:HAL_NVIC_SetPriority", "firmware/src/cube-proj/Drivers/CMSIS/Include/core_cm7.h:NVIC_EncodePriority"]}
{"id": "C128", "title": "Every edge on an interrupt pin is followed by its callback", "statement": "However edges on the five interrupt pins and the steps of the handlers are interleaved: as long as a pin has had an edge after its last callback, its request is pending or its callback is the next thing done. There are never more callbacks for a pin than edges on it. Whenever the edges pause, the processor comes to rest after finitely many steps, and by then every edge has been followed by a callback for its pin.", "quantifier": "for all interleavings of edges, interrupts and handler steps", "why_tests_cant": "edges between the test, the clearing and the callback are a matter of nanoseconds and cannot be produced on the host", "anchors": ["firmware/src/cube-proj/Drivers/STM32F7xx_HAL_Driver/Src/stm32f7xx_hal_gpio.c:HAL_GPIO_EXTI_IRQHandler", "firmware/src/cube-proj/Core/Src/stm32f7xx_it.c:EXTI4_IRQHandler", "firmware/src/cube-proj/Core/Src/stm32f7xx_it.c:EXTI9_5_IRQHandler", "firmware/src/vcu/startup/interrupts.c:HAL_GPIO_EXTI_Callback"]}
{"id": "C129", "title": "A serial port keeps listening", "statement": "Whatever bytes, line errors and silences arrive on a configured serial port, and however the interrupts of the port and of its DMA stream fall: whenever none of their handlers is running, the port is listening (bytes are stored, and both a full buffer and the end of a message raise an interrupt that reaches the firmware's callback), or the stream's interrupt is about to be served and leaves it listening. No handler calls through a null pointer. An error that interrupts the configuration of the port is no exception.", "quantifier": "for all interleavings of bytes, errors, silences, the port's interrupt, the stream's interrupt and the configuring task", "why_tests_cant": "the handlers of the vendor library interrupt each other between two statements; the places where that does harm are a few instructions wide", "anchors": ["firmware/src/cube-proj/Drivers/STM32F7xx_HAL_Driver/Src/stm32f7xx_hal_uart.c:HAL_UART_IRQHandler", "firmware/src/cube-proj/Drivers/STM32F7xx_HAL_Driver/Src/stm32f7xx_hal_uart.c:UART_EndRxTransfer", "firmware/src/cube-proj/Drivers/STM32F7xx_HAL_Driver/Src/stm32f7xx_hal_uart.c:UART_DMAReceiveCplt", "firmware/src/cube-proj/Drivers/STM32F7xx_HAL_Driver/Src/stm32f7xx_hal_uart_ex.c:HAL_UARTEx_ReceiveToIdle_DMA", "firmware/src/cube-proj/Drivers/STM32F7xx_HAL_Driver/Src/stm32f7xx_hal_dma.c:HAL_DMA_Abort_IT", "firmware/src/cube-proj/Drivers/STM32F7xx_HAL_Driver/Src/stm32f7xx_hal_dma.c:HAL_DMA_IRQHandler", "firmware/src/system-lib/uart/uart.c:HAL_UART_ErrorCallback", "firmware/src/system-lib/uart/uart.c:UART_Config"]}
{"id": "C130", "title": "The simulation server's texts appear on the log viewer's screen", "statement": "Every text of characters below 256 that the simulation server sends is shown by the log viewer character for character, filled up with NUL characters to whole messages, and nothing of it in the colour of failures, however the reads cut the bytes. A text with any other character is not sent in part: the server ends with an exception before anything is written.", "quantifier": "for all texts, all ways the reads cut the bytes", "why_tests_cant": "the tools have no tests, and examples would not cover all texts and cuts", "anchors": ["tools/ecu-config/sim-server.py:create_log_msgs", "tools/ecu-config/encode_common.py:encode_message", "tools/ecu-config/decode_common.py:MsgDecoder", "tools/ecu-config/log_view.py:handle_log_data", "tools/ecu-config/serial_common.py:SerialHandler"]}
{"id": "C131", "title": "Only a bad terminal line can break the control software", "statement": "Suppose the fault manager's pointer to the vehicle data is set (it is not as shipped, C10). Then the state machine, the fault checks, the throttle task, the inverter commands, the power channels and the PC interface, running together, never reach undefined behaviour: not for any values published by the other tasks, any timing of the tasks, any failure to take a lock or to send, any bytes from the PC. The one exception: with vehicle control enabled for the PC, a terminal message that makes the text in the terminal's buffer have nine blanks and newlines, or begin with help and have two. With vehicle control disabled there is no exception.", "quantifier": "for all configurations, all histories of writes, task switches, lock outcomes, CAN outcomes and received bytes", "why_tests_cant": "no test runs the tasks together, and undefined behaviour need not show in a test that reaches it", "anchors": ["firmware/src/vcu/vehicleLogic/stateManager/stateMachine.c:VSM_Step", "firmware/src/vcu/vehicleLogic/throttleController/throttleController.c:ThrottleController", "firmware/src/vcu/device/inverter/cInverter.c:CInverter_SendTorqueCommand", "firmware/src/vcu/device/pcinterface/requests.c:PCInterface_HandleRequests", "firmware/src/vcu/device/pcinterface/debugterm.c:PCInterface_DebugTermRecv", "firmware/src/vcu/device/pdm/pdm.c:PDM_SetOutputEnabled"]}
{"id": "C132", "title": "The clock keeps the moment it was set to", "statement": "After RTC_SetDateTime with any date and time of the years 2000 to 2099, every RTC_GetDateTime returns the moment set plus the whole seconds that have passed since (months of every length, leap days and the weekday included): within the same second exactly what was set, never a moment torn between two seconds, and never an earlier moment than a previous call.", "quantifier": "for all moments of the century, all previous contents of the clock, all instants at which seconds pass during the calls, all series of readings by all tasks", "why_tests_cant": "a torn or day-wrong reading needs midnight to fall inside a call; no test arranges that for every date", "anchors": ["firmware/src/system-lib/rtc/rtc.c:RTC_SetDateTime", "firmware/src/system-lib/rtc/rtc.c:RTC_GetDateTime", "firmware/src/cube-proj/Drivers/STM32F7xx_HAL_Driver/Src/stm32f7xx_hal_rtc.c:HAL_RTC_SetTime", "firmware/src/cube-proj/Drivers/STM32F7xx_HAL_Driver/Src/stm32f7xx_hal_rtc.c:HAL_RTC_SetDate", "firmware/src/cube-proj/Drivers/STM32F7xx_HAL_Driver/Src/stm32f7xx_hal_rtc.c:HAL_RTC_GetTime", "firmware/src/cube-proj/Drivers/STM32F7xx_HAL_Driver/Src/stm32f7xx_hal_rtc.c:HAL_RTC_GetDate", "firmware/src/cube-proj/Drivers/STM32F7xx_HAL_Driver/Src/stm32f7xx_hal_rtc.c:RTC_ByteToBcd2"]}
{"id": "C133", "title": "A battery fault reported on the CAN bus ends torque on the CAN bus in bounded time", "statement": "If the battery management system reports a cell temperature, pack current, cell voltage or state of charge beyond the configured limit in a frame on its bus, and no later frame takes it back, then every torque command frame handed to the inverter's bus later than n + 2 periods of the state manager after that frame has been taken from the receive queue commands zero torque, where n is the number of samples after which the fault counts.", "quantifier": "for all configurations with limits in range, all traffic on all buses, all interleavings of interrupts and tasks that keep up with the bus speed and their timer, all pedal, button and PC activity", "why_tests_cant": "the chain from the wire through interrupt, queue, battery task, vehicle state, fault manager, state machine, throttle task and inverter driver runs in five contexts; a test of each link does not settle the composition", "anchors": ["firmware/src/system-lib/can/can.c:ISR_RxMsgPendingCallback", "firmware/src/vcu/device/bms/orionBms.c:BMSProcessing", "firmware/src/vcu/vehicleLogic/stateManager/faultManager.c:FaultManager_Step", "firmware/src/vcu/vehicleLogic/stateManager/stateMachine.c:VSM_Step", "firmware/src/vcu/vehicleLogic/throttleController/throttleController.c:ThrottleController", "firmware/src/vcu/device/inverter/cInverter.c:CInverter_SendTorqueCommand"]}
{"id": "C134", "title": "A serial port keeps sending", "statement": "On a serial port, transfers started and completion callbacks alternate; when the callback for a transfer comes, all its bytes have been handed to the port and port and stream are ready for the next one. Every transfer that was started is completed, and the port is ready again and again, whatever errors there are in reception. While there are no errors in reception, no message handed to the port by a task or from the buffer of pending bytes is refused.", "quantifier": "for all interleavings, statement by statement, of the sending task, the port's handler, the stream's handler, the stream and the port; the second part for all executions without end in which each of them gets its turn", "why_tests_cant": "the driver masks a different interrupt than the one that completes a transfer, so the handlers run between any two statements of the send function; whether some interleaving leaves a port busy for ever cannot be settled by running some of them", "anchors": ["firmware/src/system-lib/uart/uart.c:UART_SendMessage", "firmware/src/system-lib/uart/uart.c:HAL_UART_TxCpltCallback", "firmware/src/system-lib/uart/uart.c:HAL_UART_ErrorCallback", "firmware/src/cube-proj/Drivers/STM32F7xx_HAL_Driver/Src/stm32f7xx_hal_uart.c:HAL_UART_Transmit_DMA", "firmware/src/cube-proj/Drivers/STM32F7xx_HAL_Driver/Src/stm32f7xx_hal_uart.c:UART_EndTransmit_IT", "firmware/src/cube-proj/Drivers/STM32F7xx_HAL_Driver/Src/stm32f7xx_hal_dma.c:HAL_DMA_Start_IT"]}
{"id": "C135", "title": "A healthy vehicle drives when asked", "statement": "For the firmware with the state manager wired correctly: if every lock is granted, the samples of the vehicle data never amount to a documented drive fault, and the driver follows the documented way (button, configured wait for high voltage, inverter ready within the charge time-out, button released and pressed again), then from that moment on, until they press the button again, every reading of the pedal is answered by exactly one command frame, in order, and there are no other command frames; each enables the inverter, forwards, with the torque of the pedal curve.", "quantifier": "for all interleavings of the tasks at every access to shared data, all traffic from the PC, all configurations whose wait is at most 4294967290 ms and whose fault counters fit, all histories of vehicle data", "why_tests_cant": "safety tests show that torque ends after faults; that no schedule, no PC traffic and no length of any phase keeps a healthy vehicle from driving is a claim about all histories", "anchors": ["firmware/src/vcu/vehicleLogic/stateManager/stateMachine.c:VSM_Step", "firmware/src/vcu/vehicleLogic/stateManager/faultManager.c:FaultManager_Step", "firmware/src/vcu/vehicleLogic/throttleController/throttleController.c:ThrottleController", "firmware/src/vcu/vehicleLogic/throttleController/torqueMap.c:TorqueMap_Interpolate", "firmware/src/vcu/device/inverter/cInverter.c:CInverter_SendTorqueCommand", "firmware/src/vcu/device/inverter/cInverter.c:CInverter_SendInverterEnabled"]}
{"id": "C136", "title": "The torque on the bus follows the pedal curve", "statement": "With torque enabled, the torque asked for is within a thousandth of a newton metre of the exact piecewise linear curve through the five points of the table for the direction, zero for pedal values outside 0 to 1 and for values that are no numbers. With the inverter enabled, the command frame carries that torque rounded down to tenths of a newton metre: at most 0.102 Nm less and 0.002 Nm more than the curve.", "quantifier": "for all pedal values of the float format (NaN and infinities included), both directions, both maps", "why_tests_cant": "the error of the float interpolation depends on every bit of the pedal value; 2^32 inputs per map are not tested", "anchors": ["firmware/src/vcu/vehicleLogic/throttleController/torqueMap.c:TorqueMap_Interpolate", "firmware/src/vcu/vehicleLogic/throttleController/torqueMap.c:TorqueMap_Default", "firmware/src/vcu/vehicleLogic/throttleController/throttleController.c:getTorqueMagnitude", "firmware/src/vcu/device/inverter/dataConversions.h:torqueToMsg"]}
{"id": "C137", "title": "What the battery measures appears on the PC's screen", "statement": "After any history of the vehicle in which the battery's receive queue is emptied often enough for the bus speed: a broadcast of the vehicle state at a moment when that queue is empty makes the PC tool show each of the battery's measurements (maximum cell voltage and its cell, maximum cell temperature, current, pack voltage, state of charge, counter) exactly once, with the value in the newest frame on the battery's CAN bus that carries it, zero before the first one. The condition of C84 on the frames' bytes applies.", "quantifier": "for all interleavings of CAN traffic on every bus, of the tasks at every access to shared data and of PC traffic, all payloads, all ways in which log frames are mixed in and in which the PC's reads cut the bytes", "why_tests_cant": "the path goes through an interrupt, a queue, a task, a shared record, a float conversion, a frame encoder, a serial link and a decoder in another language; a test sees one value on one schedule", "anchors": ["firmware/src/vcu/device/bms/orionBms.c:BMSProcessing", "firmware/src/vcu/device/pcinterface/periodicupdates.c:periodicStateUpdate", "tools/ecu-config/log_view.py:handle_state_data", "tools/ecu-config/decode_common.py:recv_bytes", "firmware/src/system-lib/can/can.c:HAL_CAN_RxFifo0MsgPendingCallback"]}
{"id": "C138", "title": "The torque on the bus is that of the pedal now", "statement": "As long as the throttle task finishes each activation before the next timer interrupt: every command frame with torque answers a reading of the pedal made in the same timer period and before the frame, and its torque is what the pedal curve gives for that reading (at most 0.102 Nm below, 0.002 Nm above). Hence, when the driver eases off to some pedal position, every frame from one period later on asks for no more than that position's torque; when they release the pedal (or its reading becomes no number), no frame from one period later on has torque.", "quantifier": "for all histories of the vehicle: all interleavings of state manager, throttle task, other tasks and PC traffic at every access to shared data, all pedal values of the float format, all lock and CAN outcomes, all periods", "why_tests_cant": "the delay depends on where in its activation the throttle task is preempted and on who else writes in between; a test sees one schedule and a few pedal values", "anchors": ["firmware/src/vcu/vehicleLogic/throttleController/throttleController.c:ThrottleController", "firmware/src/vcu/vehicleLogic/throttleController/torqueMap.c:TorqueMap_Interpolate", "firmware/src/vcu/device/inverter/cInverter.c:CInverter_SendTorqueCommand", "firmware/src/vcu/vehicleInterface/vehicleControl/vehicleControl.c:VehicleControl_RequestMotorTorque"]}
{"id": "C139", "title": "The inverter hears a command in every period", "statement": "As long as the throttle task runs once in each timer period and gets the inverter driver's lock: from the first command frame that enables the inverter on, every later period contains a command frame with the enable bit, in whatever state the vehicle is; the inverter never waits two periods for a command.", "quantifier": "for all histories of the vehicle: all interleavings of state manager, throttle task, other tasks and PC traffic at every access to shared data, all sensor values, all lock outcomes elsewhere and all answers of the CAN layer", "why_tests_cant": "the inverter shuts down when commands stay away; whether one is missing depends on every interleaving over an unbounded drive", "anchors": ["firmware/src/vcu/vehicleLogic/throttleController/throttleController.c:ThrottleController", "firmware/src/vcu/device/inverter/cInverter.c:CInverter_SendTorqueCommand", "firmware/src/vcu/device/inverter/cInverter.c:CInverter_SendInverterEnabled", "firmware/src/vcu/vehicleLogic/stateManager/stateMachine.c:VSM_Step"]}
{"id": "C140", "title": "The power outputs are as the PC last asked", "statement": "With control by the PC enabled and terminal text of the kind C43 covers: whenever the PC interface has finished what it has read, each of the six power output pins is at the level last asked for by the frames contained in the bytes read, whether by a power request or by a setpdm line typed at the terminal (possibly spread over several frames), whichever came later, and low if none asked; the state published in the vehicle data is the same.", "quantifier": "for all byte streams from the PC and all ways of cutting them into batches of at most eight bytes, all histories of the vehicle (interleavings of state manager, throttle, other tasks and PC interface at every access to shared data), any checksum function of the CRC unit, the PC interface obtaining the vehicle data lock", "why_tests_cant": "requests and typed lines of any length interleave with each other, with noise on the line and with all other tasks; no finite set of sessions covers the combinations", "anchors": ["firmware/src/vcu/device/pcinterface/requests.c:PCInterface_HandleRequests", "firmware/src/vcu/device/pcinterface/debugterm.c:PCInterface_DebugTermRecv", "firmware/src/vcu/device/pcinterface/debugtermcommands.c:setpdm", "firmware/src/vcu/device/pdm/pdm.c:PDM_SetOutputEnabled", "firmware/src/vcu/vehicleInterface/vehicleControl/vehicleControl.c:VehicleControl_SetPowerChannel"]}
{"id": "C141", "title": "No torque before the inverter has reported on the CAN bus that it is ready", "statement": "Whenever the inverter driver has handed a command frame with a torque other than zero to the inverter's bus, there was an earlier moment at which the vehicle was waiting for its high voltage to be charged and at which the last internal-state frame of the inverter that the VCU had taken said that the inverter is ready; the inverter had sent that frame on its own bus. Data of any other task, of the PC, or of frames on other buses cannot stand in for it.", "quantifier": "for all histories of the car from start-up: all frames on all buses, all interleavings of receive interrupts, the inverter's task, state manager, throttle task, other tasks and PC interface at every access to shared data, all configurations, the inverter's queue wired to its bus as at start-up and empty, pedal positions that are numbers, standard frames; the correctly wired state manager", "why_tests_cant": "the guarantee relates frames received on one bus to frames sent on it through queue, shared data and three state machines, whose interleavings are unbounded", "anchors": ["firmware/src/vcu/device/inverter/cInverter.c:InverterProcessing", "firmware/src/vcu/vehicleLogic/stateManager/stateMachine.c:VSM_Step", "firmware/src/system-lib/can/can.c:ISR_RxMsgPendingCallback", "firmware/src/vcu/vehicleLogic/throttleController/throttleController.c:ThrottleController"]}
{"id": "C142", "title": "What the operator asked of the power outputs is what their screen shows", "statement": "With control by the PC enabled and terminal text of the kind C43 covers: when the PC interface has finished what it has read and then broadcasts the vehicle state, the PC tool shows the line of the power outputs exactly once, and in it the bit of each of the six outputs is the state last asked for (by power request or setpdm line), which is also the level of the pin.", "quantifier": "for all byte streams from the PC and all ways of cutting them into batches of at most eight bytes, all histories of the vehicle (interleavings of state manager, throttle, other tasks and PC interface), any checksum function, log frames mixed in, all ways of cutting the answer into pieces; under C86's condition that frame marks do not occur inside frames", "why_tests_cant": "the loop runs through two framings, two parsers and the shared data; combinations of requests, text, noise and chunking are unbounded", "anchors": ["firmware/src/vcu/device/pcinterface/requests.c:PCInterface_HandleRequests", "firmware/src/vcu/device/pcinterface/periodicupdates.c:sendStatePdm", "firmware/src/vcu/device/pdm/pdm.c:PDM_SetOutputEnabled", "tools/ecu-config/log_view.py:handle_state_data", "tools/ecu-config/decode_common.py:MsgDecoder.recv_bytes"]}
{"id": "C143", "title": "No torque before the driver has pressed the button twice", "statement": "When a command frame with torque has been handed to the CAN bus, the task that reads the driver's inputs has before that read the dashboard button as pressed, later as released, and later again as pressed.", "quantifier": "for all histories from start-up: readings of pedals and button, steps of the state manager and the throttle task, traffic from the PC and writes of other tasks, in any order; for every correctly wired state manager (C10)", "why_tests_cant": "it concerns every interleaving of three tasks over start-up; a test shows single orders of events only", "anchors": ["firmware/src/vcu/device/discretesense/discretesense.c:DiscreteSense_TaskMethod", "firmware/src/vcu/vehicleLogic/stateManager/stateMachine.c:VSM_Step", "firmware/src/vcu/device/inverter/cInverter.c:CInverter_SendTorqueCommand"]}
{"id": "C144", "title": "The torque on the bus follows the pedal sensors", "statement": "While the driver holds the pedal so that neither of its two sensors reads more than a part x of its calibrated travel, every command frame later than one period after the first successful reading of both asks for at most the torque the pedal curve gives for x, up to rounding (2^-25 of the travel, 0.002 Nm). With the pedal within the first 9.9 % there is no torque at all.", "quantifier": "for all raw readings, all distinct calibration points, all histories from start-up in which the throttle task finishes within each period P, all parts x of the travel, all holding times; failed readings in between allowed", "why_tests_cant": "raw readings, orders of tasks and times are unbounded; the chain runs through three tasks and single-precision arithmetic", "anchors": ["firmware/src/vcu/device/discretesense/discretesense.c:DiscreteSense_TaskMethod", "firmware/src/vcu/vehicleLogic/throttleController/throttleController.c:ThrottleController", "firmware/src/vcu/device/inverter/cInverter.c:CInverter_SendTorqueCommand"]}
{"id": "C145", "title": "Every period of a timer is followed by its callback, and no callback comes without one", "statement": "After a timer has been started: whenever its counter runs over, its period callback follows, even if the overflow happens in the middle of the interrupt handler; there are never more period callbacks than update events, exactly as many if each comes after the callback for the one before; no other callback is ever called, whatever other flags the timer sets; and each task registered for the timer is notified once per callback. Configuring the timer counts as an update event, so the first callback comes as soon as the timer is started.", "quantifier": "for all interleavings of overflows, other timer flags, configuration, start, taken interrupts (needed or not) and single register accesses of the handler; all registrations", "why_tests_cant": "an overflow has to fall between two register accesses of the handler; host tests stub the vendor driver", "anchors": ["firmware/src/cube-proj/Drivers/STM32F7xx_HAL_Driver/Src/stm32f7xx_hal_tim.c:HAL_TIM_IRQHandler", "firmware/src/cube-proj/Drivers/STM32F7xx_HAL_Driver/Src/stm32f7xx_hal_tim.c:TIM_Base_SetConfig", "firmware/src/cube-proj/Core/Src/main.c:HAL_TIM_PeriodElapsedCallback", "firmware/src/vcu/startup/interrupts.c:TIM_IRQHandler", "firmware/src/system-lib/tasktimer/tasktimer.c:TaskTimer_TIM_PeriodElapsedCallback"]}
{"id": "C146", "title": "The analogue inputs are converted in the order the application numbers them", "statement": "Whatever the converter's registers held before start-up: each sweep converts exactly the twelve pins PA0-PA7, PB0, PB1, PC4, PC5, in this order, which is that of the application's channel numbers (throttle 1 and 2 are the 9th and 10th, the brakes the 11th and 12th); all twelve pins have been switched to their analogue function; results have 12 bits, right aligned, each sampled for 480 cycles; once started the converter goes on by itself, and makes more than 22 sweeps per period of the control task. Each configuration call changes its own rank and its own channel's sampling time and nothing else, and of several calls the last counts.", "quantifier": "for all previous register contents, all sequences of accepted configuration calls, all crystal frequencies", "why_tests_cant": "the host tests replace the vendor driver; which pin an index reads is decided by fields packed into six registers", "anchors": ["firmware/src/cube-proj/Core/Src/main.c:MX_ADC1_Init", "firmware/src/cube-proj/Drivers/STM32F7xx_HAL_Driver/Src/stm32f7xx_hal_adc.c:HAL_ADC_ConfigChannel", "firmware/src/cube-proj/Drivers/STM32F7xx_HAL_Driver/Src/stm32f7xx_hal_adc.c:ADC_Init", "firmware/src/cube-proj/Drivers/STM32F7xx_HAL_Driver/Src/stm32f7xx_hal_adc.c:HAL_ADC_Start_DMA", "firmware/src/cube-proj/Core/Src/stm32f7xx_hal_msp.c:HAL_ADC_MspInit", "firmware/src/vcu/vehicleInterface/config/deviceMapping.h:MAPPING_ADC_THROTTLE_1"]}
{"id": "C147", "title": "What the PC's messages ask of the power outputs is done", "statement": "The PC sends a session of messages with its tool's encoder, back to back: power requests, requests for the shutdown line, terminal text cut into messages of at most eight characters, messages to other devices, in any order. With control by the PC enabled and terminal text of the kind C43 covers: at any moment at which the ECU's PC interface has finished with the bytes it has read so far, each of the six power outputs is as last asked for by the messages that have arrived completely, whether by a power request or by a typed setpdm line, and off if none asked; the published state is the same. No message is missed, made up or taken for another.", "quantifier": "for all sessions (any number of messages, addresses, functions and data), all points at which the byte stream may be cut, all batches of at most eight bytes, all interleavings with the rest of the control software, the PC interface obtaining the vehicle data lock", "why_tests_cant": "two programs in two languages and a byte stream between them; the tests of each use frames written by hand", "anchors": ["tools/ecu-config/encode_common.py:encode_message", "firmware/src/system-lib/uart/msgframedecode.c:MsgFrameDecode_RecvMsg", "firmware/src/vcu/device/pcinterface/requests.c:PCInterface_HandleRequests", "firmware/src/vcu/device/pcinterface/debugterm.c:PCInterface_DebugTermRecv", "firmware/src/vcu/device/pdm/pdm.c:PDM_SetOutputEnabled"]}
{"id": "C148", "title": "The PC's screen shows the shutdown circuit", "statement": "When the shutdown-circuit task is at rest, a broadcast of the vehicle state makes the PC tool show the line of the shutdown circuit exactly once, and the bits of the number shown are the present levels of the four input pins (BMS, BSPD, IMD, output).", "quantifier": "for all histories of the pins, all interleavings of the interrupts with the publishing task, all other vehicle data, all log traffic mixed in, all ways the PC reads the bytes", "why_tests_cant": "from a pin through an interrupt, two tasks and a byte stream to a program in another language; tests cover one of them each", "anchors": ["firmware/src/vcu/device/sdc/sdc.c:SDC_IRQHandler", "firmware/src/vcu/device/sdc/sdc.c:SDC_TaskMethod", "firmware/src/vcu/device/pcinterface/periodicupdates.c:sendStateSdc", "tools/ecu-config/log_view.py"]}
{"id": "C149", "title": "No torque when a part of the control software stops", "statement": "When a task of the control software stops running while the vehicle drives (the throttle task, the state manager, or the tasks that publish sensor and battery data), the vehicle soon stops asking the inverter for torque.", "quantifier": "for all histories before, all data published afterwards, all interleavings of the tasks that still run, all traffic from the PC", "why_tests_cant": "a task that hangs does not occur in unit tests, and the consequence is a property of all the other tasks", "anchors": ["firmware/src/vcu/vehicleLogic/watchdogTrigger/watchdogTrigger.c:WatchdogTrigger", "firmware/src/vcu/vehicleLogic/throttleController/throttleController.c:ThrottleController", "firmware/src/vcu/vehicleLogic/stateManager/vehicleStateManager.c", "firmware/src/vcu/vehicleInterface/vehicleControl/vehicleControl.c:VehicleControl_RequestMotorTorque"]}
{"id": "C150", "title": "Bytes on the serial lines are received as sent", "statement": "After start-up every byte the VCU sends to the PC or receives from the PC or the GPS receiver crosses its serial line unchanged: with the PC tool's settings and the shipped clock settings, the receiving end hears exactly the bytes sent, in order and without framing errors.", "quantifier": "for all byte sequences, all pauses between the bytes, all positions of the bits relative to the receiver's samples, all crystals within 0.1 % and all rates of the other side within 3.5 %, all earlier contents of the port's registers", "why_tests_cant": "the firmware's and the tool's settings are in different languages, and sampling a line is not part of any unit test; a tolerance is a range of real numbers", "anchors": ["firmware/src/cube-proj/Core/Src/main.c:MX_USART1_UART_Init", "firmware/src/cube-proj/Core/Src/main.c:MX_USART3_UART_Init", "firmware/src/cube-proj/Core/Src/main.c:MX_USART6_UART_Init", "firmware/src/cube-proj/Drivers/STM32F7xx_HAL_Driver/Src/stm32f7xx_hal_uart.c:UART_SetConfig", "firmware/src/cube-proj/Drivers/STM32F7xx_HAL_Driver/Src/stm32f7xx_hal_uart.c:HAL_UART_Init", "tools/ecu-config/serial_common.py", "tools/ecu-config/log_view.py"]}
{"id": "C151", "title": "Software that has stopped commands nothing", "statement": "After the control software has stopped (failed assertion, error handler, processor fault) the VCU gives no further commands: each CAN bus carries at most the frames, three or fewer, that were already in the peripheral's mailboxes; no output pin changes; no further byte is handed to a serial port.", "quantifier": "for all places where the software stops (in a task or in a handler of any priority), all interrupts requested afterwards, all things their handlers would do, all traffic and faults on the buses, all contents of the mailboxes", "why_tests_cant": "a stopped program cannot be examined by a test that runs in it; the claim is about everything that may still run", "anchors": ["firmware/src/cube-proj/Core/Inc/FreeRTOSConfig.h:configASSERT", "firmware/src/cube-proj/Core/Src/main.c:Error_Handler", "firmware/src/cube-proj/Core/Src/stm32f7xx_it.c:HardFault_Handler", "firmware/src/cube-proj/Core/Src/main.c:HAL_TIM_PeriodElapsedCallback"]}
{"id": "C152", "title": "Frames on the CAN bus are read as sent", "statement": "Each of the three CAN controllers, as start-up sets it, reads every frame of a node that sends 1 Mbit/s up to 0.3 % bit by bit as that node sent it, and a node set in the same way reads every frame of the VCU, as long as the VCU's crystal is within 0.1 % of its nominal frequency: no bit is lost, doubled or altered, however long the frame and wherever between two clock ticks it begins.", "quantifier": "for all register contents before start-up, all three controllers, all bit streams and their stuffing, acknowledged or not, all crystal frequencies and rates within the tolerances, all moments at which listening and sending begin, all lengths of time", "why_tests_cant": "clock deviations and phases form a continuum and errors add up over the bits of a frame; a test bench has one crystal and one phase at a time", "anchors": ["firmware/src/cube-proj/Core/Src/main.c:MX_CAN1_Init", "firmware/src/cube-proj/Core/Src/main.c:MX_CAN2_Init", "firmware/src/cube-proj/Core/Src/main.c:MX_CAN3_Init", "firmware/src/cube-proj/Core/Src/main.c:SystemClock_Config", "firmware/src/cube-proj/Drivers/STM32F7xx_HAL_Driver/Src/stm32f7xx_hal_can.c:HAL_CAN_Init", "firmware/src/cube-proj/Drivers/STM32F7xx_HAL_Driver/Src/stm32f7xx_hal_can.c:HAL_CAN_Start"]}
{"id": "C153", "title": "A failed pedal or brake sensor ends torque in bounded time", "statement": "Once the sensor task has read a pedal or brake sensor outside its calibrated range, or the two pedal sensors further apart than the configured limit, or (where that check is configured) accelerator and brake both pressed beyond their thresholds, and finds it so whenever it can read these sensors during the configured time and one more 10 ms period, every command frame handed to the CAN layer from the configured time and three periods after that reading on asks for zero torque: within 130 ms as shipped. Failed readings in between, a state lock not obtained, and anything the other tasks do to the vehicle data in the meantime do not delay this.", "quantifier": "for all configurations with distinct calibration points, all raw readings and read failures, all interleavings of the sensor task, the control tasks and all other tasks from start-up in which the control tasks finish each activation before the next one, all four sensors", "why_tests_cant": "the path crosses three tasks with separate timing and a calibration in floating point; tests fix one order of the tasks and a few raw values", "anchors": ["firmware/src/vcu/device/discretesense/discretesense.c:DiscreteSense_TaskMethod", "firmware/src/vcu/vehicleLogic/stateManager/faultManager.c:FaultManager_Step", "firmware/src/vcu/vehicleLogic/stateManager/vehicleStateManager.c:StateManagerProcessing", "firmware/src/vcu/vehicleLogic/stateManager/stateMachine.c:VSM_Step", "firmware/src/vcu/vehicleLogic/throttleController/throttleController.c:ThrottleController"]}
{"id": "C154", "title": "A task is done within the time that its level needs", "statement": "From the moment a task can run, the processor spends its time only on interrupt routines, on spells in which a task switch is owed (the scheduler is suspended, or an interrupt routine has woken a task without asking for the switch), and on tasks that at that moment have at least this task's priority. So if in a window these three take at most I, L and the sum of B(u), the task comes to wait for its next activation before the processor has worked for more than I + L + the sum of B(u). L is zero if the scheduler is not suspended while tasks work and all interrupt routines ask for the switches they make necessary. No mutex may be given back in the window by a task whose lender has given up waiting (C108).", "quantifier": "for all task sets, all histories of kernel events, task work and interrupts from every such state of the running system, all budgets", "why_tests_cant": "response times depend on every interleaving of tasks, ticks, interrupts and priority inheritance; a test measures a few", "anchors": ["firmware/src/cube-proj/Lib/FreeRTOS/Source/tasks.c:vTaskSwitchContext", "firmware/src/cube-proj/Lib/FreeRTOS/Source/tasks.c:xTaskIncrementTick", "firmware/src/cube-proj/Lib/FreeRTOS/Source/tasks.c:xTaskResumeAll", "firmware/src/cube-proj/Lib/FreeRTOS/Source/tasks.c:xTaskPriorityInherit"]}
{"id": "C155", "title": "The clocks are brought up without leaving the processor's limits", "statement": "From reset until the clock set-up has returned, and for good if it gives up because an oscillator, the PLL, the regulator or the clock switch does not respond: the processor clock is at every moment one that the flash serves with the wait states then set (30 MHz per cycle) and that the core supply allows (180 MHz, or 216 MHz once over-drive is in effect); both peripheral buses keep to their limits (45 and 90 MHz, with over-drive 54 and 108 MHz); the system runs from the PLL only while that is locked and fed; the PLL gets 1 to 2 MHz and makes at most 432 MHz, and its setting changes only while it is stopped; over-drive is not switched while the PLL drives the system. If the set-up returns, the processor runs at 27/2 of the crystal frequency, 216 MHz.", "quantifier": "for all moments and orders in which the hardware responds or fails to, all crystal and internal oscillator frequencies within a tolerance of 16 MHz (limits scaled by it)", "why_tests_cant": "exceeding a limit for a few microseconds shows on few parts and at few temperatures; the order of response of the hardware cannot be chosen in a test", "anchors": ["firmware/src/cube-proj/Core/Src/main.c:SystemClock_Config", "firmware/src/cube-proj/Drivers/STM32F7xx_HAL_Driver/Src/stm32f7xx_hal_rcc.c:HAL_RCC_OscConfig", "firmware/src/cube-proj/Drivers/STM32F7xx_HAL_Driver/Src/stm32f7xx_hal_rcc.c:HAL_RCC_ClockConfig", "firmware/src/cube-proj/Drivers/STM32F7xx_HAL_Driver/Src/stm32f7xx_hal_pwr_ex.c:HAL_PWREx_EnableOverDrive"]}
{"id": "C156", "title": "A drive fault has a cause outside", "statement": "If the check for drive faults reports a fault, then something was wrong outside the controller: at as many of its 10 ms samples in a row as the configured time allows, a pedal or brake sensor had last been read outside its calibrated range, or the two pedal sensors further apart than the limit, or accelerator and brake pressed together beyond their thresholds (where this is checked), or the last value the battery had reported for temperature, current or cell voltage was above its limit; or the last reported state of charge was below its minimum. Conversely each sensor out of range and each reported value beyond its limit, at that many samples, is reported for good. The software's own start-up values are never a cause.", "quantifier": "for all interleavings of receive interrupts, battery, inverter and sensor tasks, control and other tasks from start-up, all frames and readings, all configurations with distinct calibration points", "why_tests_cant": "depends on every interleaving of five tasks and two buses and on all values in flight; a test that sees no fault says nothing about the next start", "anchors": ["firmware/src/vcu/vehicleLogic/stateManager/faultManager.c:FaultManager_Step", "firmware/src/vcu/device/discretesense/discretesense.c:DiscreteSense_TaskMethod", "firmware/src/vcu/device/bms/orionBms.c:BMSProcessing", "firmware/src/vcu/vehicleLogic/stateManager/vehicleStateManager.c:StateManagerProcessing"]}
{"id": "C157", "title": "A sound vehicle drives as the pedal says, seen from outside", "statement": "With everything that feeds the controller running: if no drive fault has a cause outside, locks are granted, and everything has been read and reported before the first sample, then the documented sequence (button released and pressed, high-voltage wait, inverter reporting ready in time, button released and pressed again) brings the vehicle to drive; from then on, until the driver presses the button again, every activation of the throttle task sends exactly one command that enables the inverter forwards with the torque of the documented curve for the pedal position last shown by the two sensors on the converter, up to a rounding of one eight-millionth of the travel.", "quantifier": "for all interleavings of receive interrupts, battery, inverter and sensor tasks, control and other tasks from start-up, all frames and readings that meet the condition, all configurations with distinct calibration points", "why_tests_cant": "a drive in a test is one interleaving and one set of values; that no combination of sound readings and frames is refused or answered with a different torque needs all of them", "anchors": ["firmware/src/vcu/vehicleLogic/stateManager/stateMachine.c:VSM_Step", "firmware/src/vcu/vehicleLogic/throttleController/throttleController.c:ThrottleController", "firmware/src/vcu/device/discretesense/discretesense.c:DiscreteSense_TaskMethod", "firmware/src/vcu/device/bms/orionBms.c:BMSProcessing", "firmware/src/vcu/device/inverter/cInverter.c:InverterProcessing"]}
{"id": "C158", "title": "The torque is the straight line between the table's points, for every table and compiler setting", "statement": "A table of five pedal positions and torques may be replaced by any other with increasing positions: at each of its points the requested torque is exactly that of the table, between two points it is the straight line between them up to a rounding of M/2^19 (M the largest torque), it is never negative if no torque of the table is, and outside the positions, for the infinities and for not-a-number it is zero. This holds whether or not the compiler joins one of the two products with the sum into a single rounding. Two equal positions at the end of a table would give not-a-number, so that positions must increase.", "quantifier": "for all tables of floats with increasing positions up to 2^20 and torques up to M, 1 <= M <= 2^20; for all pedal values; for the three ways of evaluating the sum of products", "why_tests_cant": "a unit test checks a few pedal values of one table with one compiler; the error bound concerns all floats, all tables and code the compiler is free to choose", "anchors": ["firmware/src/vcu/vehicleLogic/throttleController/torqueMap.c:TorqueMap_Interpolate"]}
{"id": "C159", "title": "Nothing is used before it is made, and start-up never waits", "statement": "Tasks are created one by one during start-up and may run at once, some of them before the streams they read from exist. Still, whatever the interleaving of start-up, tasks and interrupts and whatever the hardware answers: no task or log call uses a queue, stream, lock or data set before start-up has made it; start-up never waits for a task and none of its messages is given up for want of the log's lock; the PC interface, GPS, shutdown-circuit, throttle and state-manager tasks do not run before start-up is complete (and never if it fails), so that no torque is commanded before; start-up is complete as soon as the init task has executed its own steps; then everything that any of the ten tasks uses is there. If start-up could be made to wait between the creation of such a task and of its stream, the task would use a stream that does not exist.", "quantifier": "for all interleavings of the init task, ten tasks that do anything occurring in their code in any order, and interrupts; for all answers of the hardware", "why_tests_cant": "depends on the scheduler's choice between every two steps of start-up; a test bench that starts a hundred times sees a handful of these interleavings", "anchors": ["firmware/src/vcu/startup/initialize.c:ECU_Init_Task", "firmware/src/system-lib/logging/logging.c:Log_Print", "firmware/src/system-lib/logging/logging.c:Log_SetSerialStream", "firmware/src/vcu/device/gps/gps.c:GPS_Init", "firmware/src/vcu/device/pcinterface/pcinterface.c:PCInterface_Init", "firmware/src/vcu/device/wheelspeed/wheelspeed.c:Wheelspeed_Init"]}
{"id": "C160", "title": "A second of the clock is a second, and a restart keeps the moment", "statement": "After the date and time have been set, t seconds of real time move the clock on by t seconds, up to the tolerance of its oscillator; a restart of the firmware leaves the moment as it is.", "quantifier": "for all moments, all numbers of seconds, all frequencies of the oscillator, all prior contents of the clock's registers", "why_tests_cant": "a test compares the clock with real time for seconds, where the deviation does not show; the moment after a restart depends on register contents that survive it", "anchors": ["firmware/src/cube-proj/Core/Src/main.c:MX_RTC_Init", "firmware/src/cube-proj/Core/Src/stm32f7xx_hal_msp.c:HAL_RTC_MspInit", "firmware/src/cube-proj/Drivers/STM32F7xx_HAL_Driver/Src/stm32f7xx_hal_rtc.c:HAL_RTC_Init"]}
{"id": "C161", "title": "The start-up task ends without a trace", "statement": "A task that ends itself never runs again, whatever interrupts, ticks, signals and other tasks do, unless it is created anew: the call succeeds, leaves every other task alone and asks for a change of tasks, and after that change the task is never the running one. The idle task, as soon as it has the processor, clears up exactly the tasks that have ended, never reads an empty list, and leaves the living tasks alone.", "quantifier": "every set of tasks and priorities, every history before and after the end of the task", "why_tests_cant": "a task that comes back, or a clean-up that finds its list empty, needs one history of events among unboundedly many", "anchors": ["firmware/src/vcu/startup/initialize.c:ECU_Init_Task", "firmware/src/cube-proj/Lib/FreeRTOS/Source/tasks.c:vTaskDelete", "firmware/src/cube-proj/Lib/FreeRTOS/Source/tasks.c:prvCheckTasksWaitingTermination", "firmware/src/cube-proj/Lib/FreeRTOS/Source/tasks.c:vTaskSwitchContext"]}
{"id": "C162", "title": "The terminal answers every line in full", "statement": "For terminal text of the kind C43 covers, what the terminal does and says is exactly the dialogue of the lines received: line by line in the order received, each output set and then reported with its number and value, the help screens with every command, refusals with their reason, and the prompt after each line; nothing else is said or done. Each text leaves for the PC as one valid frame that carries the whole text and its length.", "quantifier": "every text stream of that kind and every way of cutting it into packets of at most eight bytes, every content of the frame buffer, every checksum function", "why_tests_cant": "the answers depend on every line and on where the packets cut it; a test sees a few dialogues", "anchors": ["firmware/src/vcu/device/pcinterface/debugterm.c:PCInterface_DebugTermRecv", "firmware/src/vcu/device/pcinterface/debugtermcommands.c:cmd_help", "firmware/src/vcu/device/pcinterface/debugtermcommands.c:cmd_setpdm", "firmware/src/vcu/device/pcinterface/debugtermcommands.c:cmd_setsdc", "firmware/src/vcu/device/pcinterface/debugtermlib.h:DebugPrint"]}
{"id": "C163", "title": "Kernel objects keep to the memory they were given", "statement": "Every queue, stream buffer and task is created with no more memory than the firmware declares for it. Wherever the declared arrays lie, as long as they do not overlap, operations on all queues and stream buffers together, interleaved with any other code that writes its own variables, access nothing outside the arrays: every queue answers as a bounded list that nobody else uses, every stream buffer goes through the states it would go through alone (also when several senders are inside it at once), bytes outside the arrays change only when other code writes them, and creating a task writes only its own stack and control block.", "quantifier": "every placement of the arrays, every initial memory content, every item size, every interleaving of operations on all objects with other code", "why_tests_cant": "creation takes a length and an address and cannot see how long the array is; an overrun shows only when a neighbour's byte is used, in one placement and one interleaving", "anchors": ["firmware/src/cube-proj/Lib/FreeRTOS/Source/queue.c:xQueueGenericCreateStatic", "firmware/src/cube-proj/Lib/FreeRTOS/Source/stream_buffer.c:xStreamBufferGenericCreateStatic", "firmware/src/cube-proj/Lib/FreeRTOS/Source/tasks.c:xTaskCreateStatic", "firmware/src/vcu/device/bms/orionBms.c:BMS_QUEUE_LENGTH", "firmware/src/vcu/device/inverter/cInverter.c:INVERTER_QUEUE_LENGTH", "firmware/src/system-lib/can/can.c:TX_PENDING_ITEM_SIZE", "firmware/src/system-lib/uart/uart.c:UART_MAX_DMA_LEN", "firmware/src/vcu/device/gps/gps.c:GPS_RECV_STREAM_SIZE_BYTES", "firmware/src/vcu/device/pcinterface/pcinterface.c:PCINTERFACE_LOG_STREAM_SIZE_BYTES"]}
{"id": "C164", "title": "The report of a start-up is handed to the serial ports complete", "statement": "When start-up is complete, the text for the PC begins with every line start-up has logged since serial logging was switched on: welcome picture, begin and end of every module, in order, none cut and none missing, although nothing is taken out of the log stream while start-up goes on. Before that no log frame leaves. Once the PC interface's task gets the processor, finitely many frames handed to the serial ports carry the report, and the log viewer prints it from these frames. (What the ports do with so many frames at once is C166.)", "quantifier": "every interleaving of start-up, tasks, interrupts and the kernel's choices, every other text printed by the PC interface's task, every checksum function", "why_tests_cant": "log lines that find no room in the stream are dropped without notice; whether they fit depends on all modules' texts together and on when the lower task first runs", "anchors": ["firmware/src/vcu/startup/initialize.c:ECU_Init_Task", "firmware/src/vcu/startup/welcomemsg.c:welcomeMsg", "firmware/src/system-lib/logging/logging.c:Log_Print", "firmware/src/system-lib/logging/logging.c:Log_SetSerialStream", "firmware/src/vcu/device/pcinterface/pcinterface.c:PCINTERFACE_LOG_STREAM_SIZE_BYTES"]}
{"id": "C165", "title": "A failed start-up tells the PC which module failed", "statement": "When a module fails to initialise, the log text sent to the PC says that start-up has failed and names the module.", "quantifier": "every failing step, every interleaving of start-up, tasks and interrupts, every continuation", "why_tests_cant": "the message is written and can be seen in memory; that the task which would send it never gets the processor again is a statement about all continuations", "anchors": ["firmware/src/vcu/startup/initialize.c:ECU_Init_Error", "firmware/src/vcu/startup/initialize.c:TRY_INIT", "firmware/src/vcu/startup/initialize.c:ECU_Init_Task", "firmware/src/vcu/device/pcinterface/pcinterface.c:PCINTERFACE_TASK_PRIORITY"]}
{"id": "C166", "title": "Text that has gathered gets onto the serial line complete", "statement": "However much log text has gathered when the PC interface's task gets the processor, in particular the report of a start-up, all of its frames get onto the serial line.", "quantifier": "every interleaving of the sending task with the interrupts, every amount of text, every continuation", "why_tests_cant": "the calls report success although they drop bytes, and whether they drop any depends on the amount of text against the speed of the line and on an interrupt that the waiting call itself has disabled", "anchors": ["firmware/src/system-lib/uart/uart.c:UART_SendMessage", "firmware/src/system-lib/uart/uart.c:HAL_UART_TxCpltCallback", "firmware/src/system-lib/uart/uart.h:UART_MAX_DMA_LEN", "firmware/src/vcu/device/pcinterface/pcinterface.c:flushLogMessage", "firmware/src/vcu/startup/initialize.c:ECU_Init_Task"]}
