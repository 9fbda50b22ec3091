c81_determines Ethabi.Spec.signedDecimal._sparseCasesOn_1 Ethabi.Err.hex Ethabi.Spec.hexadecimal Ethabi.Spec.sound Ethabi.ParamType.uint Ethabi.Spec.decDigit Ethabi.ParamType.rec Ethabi.Spec.hexText Ethabi.Spec.decimal Ethabi.Token.array Ethabi.ParamType.rec_1 Ethabi.Token.tuple Ethabi.Address Ethabi.lit Ethabi.Spec.bytesIn Ethabi.U256 Ethabi.Err.other Ethabi.Err.invalidData Ethabi.Spec.outside._f Ethabi.Spec.signedDecimal Ethabi.Err.invalidName Ethabi.ParamType.fixedArray Ethabi.Spec.numeral._f Ethabi.Res Ethabi.Token.string Ethabi.Res.panic Ethabi.ParamType.fixedBytes Ethabi.Token.int Ethabi.ParamType.int Ethabi.ParamType.below Ethabi.ParamType.tuple Ethabi.Token.bytes Ethabi.Spec.listOf Ethabi.Spec.signedDecimal.match_1 Ethabi.Spec.spans Ethabi.ParamType.bool Ethabi.Err.utf8 Ethabi.ParamType.array Ethabi.ParamType.below_1 Ethabi.ParamType.brecOn Ethabi.Spec.depth Ethabi.ParamType.string Ethabi.Spec.numeral Ethabi.Spec.hexDigitAny Ethabi.Spec.elementText.match_1 Ethabi.Spec.numeral._sparseCasesOn_1 Ethabi.Spec.denotesEach._f Ethabi.Err.parseInt Ethabi.Spec.denotes._f Ethabi.Spec.denotes.match_1 Ethabi.ParamType.address Ethabi.Spec.denotesEach Ethabi.Bytes Ethabi.Res.err Ethabi.Spec.cuts Ethabi.Res.ok Ethabi.beNat Ethabi.Spec.breaks._sparseCasesOn_1 Ethabi.Tokenizer.lenient Ethabi.Token.address Ethabi.Token.fixedBytes Ethabi.Spec.breaksAt._f Ethabi.ParamType.casesOn Ethabi.Spec.breaksAt.match_1 Ethabi.ParamType.brecOn_1 Ethabi.Spec.breaks.match_1 Ethabi.Spec.outside Ethabi.ParamType Ethabi.Spec.partOf Ethabi.Spec.quoted Ethabi.ParamType.ctorIdx Ethabi.Spec.spans._f Ethabi.Tokenizer Ethabi.Token Ethabi.Spec.outside.match_1 Ethabi.ParamType.brecOn.go Ethabi.Spec.bracketed Ethabi.Token.uint Ethabi.Spec.numeral.match_1 Ethabi.ParamType.bytes Ethabi.Err Ethabi.Spec.spans.match_1 Ethabi.Str Ethabi.Spec.breaks._f Ethabi.Spec.denotes Ethabi.Spec.isFullHex Ethabi.Tokenizer.strict Ethabi.Spec.breaks Ethabi.Spec.partsThen Ethabi.ParamType.brecOn_1.go Ethabi.Spec.denotesEach.match_1 Ethabi.Token.bool Ethabi.Token.fixedArray Ethabi.Spec.hexDigitAny.match_1 Ethabi.Spec.isCut Ethabi.Err.serdeJson
c74_determines Ethabi.Profile Ethabi.Err.hex Ethabi.Spec.dynamicAny.match_1 Ethabi.ParamType.uint Ethabi.ParamType.rec Ethabi.second4 Ethabi.Spec.smallAt Ethabi.Token.array Ethabi.ParamType.rec_1 Ethabi.Spec.staticSize._sparseCasesOn_1 Ethabi.Spec.headWidth Ethabi.Token.tuple Ethabi.Spec.overruns._sparseCasesOn_1 Ethabi.Spec.overruns.match_1 Ethabi.Spec.zeroTypes Ethabi.Spec.dynamicAny Ethabi.replacementChar Ethabi.Address Ethabi.Spec.dynamicAny._f Ethabi.U256 Ethabi.Err.other Ethabi.Err.invalidData Ethabi.fromUtf8Lossy._f Ethabi.Spec.narrowAll Ethabi.Err.invalidName Ethabi.ParamType.fixedArray Ethabi.Spec.dynamic._f Ethabi.Res Ethabi.Spec.staticSize.match_1 Ethabi.Token.string Ethabi.Res.panic Ethabi.Spec.narrowAll._f Ethabi.ParamType.fixedBytes Ethabi.Token.int Ethabi.ParamType.int Ethabi.Profile.release Ethabi.ParamType.below Ethabi.ParamType.tuple Ethabi.Spec.overrunsAny.match_1 Ethabi.Token.bytes Ethabi.Spec.overruns._f Ethabi.Spec.staticSize Ethabi.Spec.numberAt Ethabi.ParamType.bool Ethabi.Spec.dynamic.match_1 Ethabi.Err.utf8 Ethabi.ParamType.array Ethabi.ParamType.below_1 Ethabi.fromUtf8Lossy.match_3 Ethabi.ParamType.brecOn Ethabi.ParamType.string Ethabi.Spec.staticSize._f Ethabi.second3 Ethabi.fromUtf8Lossy Ethabi.fromUtf8Lossy.match_1 Ethabi.Err.parseInt Ethabi.Spec.spaced Ethabi.utf8CharWidth Ethabi.Spec.readsAll Ethabi.ParamType.address Ethabi.Bytes Ethabi.Res.err Ethabi.Spec.overrunsAny._f Ethabi.Spec.readsAll.match_1 Ethabi.Res.ok Ethabi.Spec.staticSizeAll._f Ethabi.fromUtf8Lossy.match_5 Ethabi.Spec.dynamic Ethabi.Profile.debug Ethabi.Spec.reads.match_1 Ethabi.Token.address Ethabi.Token.fixedBytes Ethabi.Spec.overrunsAny Ethabi.ParamType.casesOn Ethabi.ParamType.brecOn_1 Ethabi.Spec.narrow._f Ethabi.ParamType Ethabi.Spec.reads Ethabi.ParamType.ctorIdx Ethabi.Spec.payloadAt Ethabi.Token Ethabi.isCont Ethabi.ParamType.brecOn.go Ethabi.Spec.spacedOverrun Ethabi.Token.uint Ethabi.ParamType.bytes Ethabi.Err Ethabi.Str Ethabi.Spec.readsAll._f Ethabi.Spec.reads._f Ethabi.ParamType.brecOn_1.go Ethabi.fromUtf8Lossy.match_7 Ethabi.Token.bool Ethabi.Token.fixedArray Ethabi.Spec.narrow._sparseCasesOn_1 Ethabi.emptyDataMsg Ethabi.Spec.word Ethabi.Spec.narrow.match_1 Ethabi.Err.serdeJson
c92_determines Ethabi.Spec.Unopened.fixedArray Ethabi.Spec.AnyText.Understood.skip Ethabi.Spec.AnyText.closed.match_1 Ethabi.Spec.AnyText.nextText Ethabi.Err.hex Ethabi.Spec.AnyText.Crash.fixedArray Ethabi.Spec.Elementary.int Ethabi.Spec.AnyText.Text.elementary Ethabi.Spec.AnyText.Mark.char.match_1 Ethabi.ParamType.uint Ethabi.Spec.Elementary Ethabi.Spec.AnyText.Understood.group Ethabi.Spec.TypeText.fixedArray Ethabi.Spec.AnyText.Cut.mk Ethabi.Spec.AnyText.Text.fixedArray Ethabi.Spec.FlatText.array Ethabi.Spec.Elementary.address Ethabi.Spec.AnyText.Text.array Ethabi.Spec.TypeText.array Ethabi.Spec.AnyText.Understood.done Ethabi.Spec.AnyText.Understood.keep Ethabi.Err.other Ethabi.Spec.AnyText.Understood.reopen Ethabi.Spec.Elementary.bytes Ethabi.Spec.AnyText.listText Ethabi.Err.invalidData Ethabi.Spec.AnyText.Understood.last Ethabi.Spec.Elementary.tuple Ethabi.Err.invalidName Ethabi.ParamType.fixedArray Ethabi.Spec.AnyText.Mark.comma Ethabi.Spec.Unopened.bare Ethabi.Res Ethabi.Spec.FlatUnopened Ethabi.Res.panic Ethabi.Spec.AnyText.withoutNext Ethabi.Spec.Members.cons Ethabi.ParamType.fixedBytes Ethabi.ParamType.int Ethabi.Spec.AnyText.Cut.text Ethabi.ParamType.tuple Ethabi.Spec.Members.nil Ethabi.Spec.Elementary.intN Ethabi.Spec.TypeText.elementary Ethabi.Spec.AnyText.Mark.casesOn Ethabi.ParamType.bool Ethabi.Spec.AnyText.Understood.passed Ethabi.Err.utf8 Ethabi.ParamType.array Ethabi.Spec.AnyText.Crash.tuple Ethabi.ParamType.string Ethabi.Spec.Elementary.uint Ethabi.Spec.FlatUnopened.tuple Ethabi.Spec.AnyText.Text Ethabi.Spec.AnyText.Understood.deepGroup Ethabi.Spec.AnyText.Place.inside Ethabi.Spec.AnyText.Crash Ethabi.Spec.AnyText.Crash.bare Ethabi.Err.parseInt Ethabi.Spec.Elementary.bytesN Ethabi.Spec.AnyText.Understood Ethabi.Spec.AnyText.Mark Ethabi.ParamType.address Ethabi.Spec.AnyText.Place.reopened Ethabi.Spec.Unopened.array Ethabi.Spec.AnyText.Mark.closing Ethabi.Res.err Ethabi.Spec.AnyText.Crash.array Ethabi.Spec.AnyText.Understood.again Ethabi.Spec.FlatText.tuple Ethabi.Spec.FlatUnopened.bare Ethabi.Res.ok Ethabi.Spec.AnyText.Understood.member Ethabi.Spec.AnyText.Cut Ethabi.Spec.FlatUnopened.fixedArray Ethabi.Spec.AnyText.Mark.opening Ethabi.Spec.AnyText.Understood.badLast Ethabi.Spec.AnyText.Understood.close Ethabi.Spec.Members.skip Ethabi.Spec.AnyText.Cut.mark Ethabi.Spec.FlatUnopened.array Ethabi.Spec.TypeText Ethabi.Spec.Unopened.number Ethabi.Spec.FlatText.elementary Ethabi.Spec.NoDelimiter Ethabi.Spec.AnyText.Understood.badMember Ethabi.Spec.AnyText.Text.tuple Ethabi.Spec.AnyText.Understood.badGroup Ethabi.Spec.numberText Ethabi.Spec.AnyText.closed Ethabi.Spec.Elementary.bool Ethabi.ParamType Ethabi.Spec.AnyText.Place Ethabi.Spec.FlatText.fixedArray Ethabi.Spec.FlatText Ethabi.Spec.Members Ethabi.Spec.Elementary.uintN Ethabi.Spec.AnyText.Understood.open Ethabi.Spec.Unopened Ethabi.ParamType.bytes Ethabi.Err Ethabi.Spec.FlatUnopened.number Ethabi.Spec.AnyText.Proper Ethabi.Spec.AnyText.Place.outside Ethabi.Str Ethabi.Spec.AnyText.Crash.number Ethabi.Spec.Elementary.string Ethabi.Spec.AnyText.Mark.rec Ethabi.Spec.AnyText.cutsText Ethabi.Spec.AnyText.nextText.match_1 Ethabi.Spec.commaSeparated Ethabi.Spec.AnyText.Mark.char Ethabi.Err.serdeJson
c85_determines_decode_log Ethabi.Function Ethabi.Spec.DenotesEach Ethabi.Spec.typeNames._f Ethabi.stripPlus Ethabi.Profile Ethabi.Operation.fallback Ethabi.Err.hex Ethabi.Param.name Ethabi.Json.obj Ethabi.Event Ethabi.Json.str Ethabi.Spec.hexadecimal Ethabi.Res.rec Ethabi.Spec.DenotesMember Ethabi.stripPlus.match_1 Ethabi.Spec.dynamicAny.match_1 Ethabi.arrayNum Ethabi.ParamType.uint Ethabi.startsWith Ethabi.ParamType.rec Ethabi.Spec.DenotesOperation.eventArray Ethabi.Spec.hexText Ethabi.Spec.AroundTuple Ethabi.StateMutability.rec Ethabi.Mode Ethabi.Spec.AroundTuple.tuple Ethabi.Spec.valueType._sparseCasesOn_1 Ethabi.Param.kind Ethabi.second4 Ethabi.splitAtByte._f Ethabi.Spec.smallAt Ethabi.read Ethabi.Token.array Ethabi.Props.PicksEvent Ethabi.Token.displayAll.match_1 Ethabi.ParamType.rec_1 Ethabi.Spec.staticSize._sparseCasesOn_1 Ethabi.Spec.headWidth Ethabi.Token.tuple Ethabi.EventParam.name Ethabi.Spec.zeroTypes Ethabi.Json.arr Ethabi.StateMutability.nonPayable Ethabi.Spec.dynamicAny Ethabi.Spec.DenotesType.tuple Ethabi.Spec.KnownKeys Ethabi.Token.displayAll._f Ethabi.indexVec Ethabi.Param.mk Ethabi.ReadSt Ethabi.replacementChar Ethabi.Address Ethabi.readLoop.match_3 Ethabi.TupleParam.mk Ethabi.lit Ethabi.Spec.dynamicAny._f Ethabi.Spec.DenotesEventParam Ethabi.Spec.DenotesTail.both Ethabi.Json.bool Ethabi.Spec.mutabilityWord.match_1 Ethabi.U256 Ethabi.indexVec.match_1 Ethabi.TupleParam.name Ethabi.Err.other Ethabi.Operation.event Ethabi.Command.decodeLog Ethabi.Err.invalidData Ethabi.Operation.ctorIdx Ethabi.Function.constant Ethabi.Spec.entriesOf Ethabi.Spec.DenotesEach.nil Ethabi.Spec.WithMembers.tuple Ethabi.readComma Ethabi.fromUtf8Lossy._f Ethabi.readElementary Ethabi.utf8Char Ethabi.Spec.typeName._f Ethabi.ReadSt.nested Ethabi.Mode.buffered Ethabi.Json.num Ethabi.Props.namedValues Ethabi.Spec.DefaultBool Ethabi.Err.invalidName Ethabi.ParamType.fixedArray Ethabi.Props.textHash Ethabi.readFuel Ethabi.Spec.numeral._f Ethabi.Operation.function Ethabi.Res.bind Ethabi.Spec.dynamic._f Ethabi.Spec.DenotesMembers Ethabi.Spec.topicsHold Ethabi.Param.internalType Ethabi.Param Ethabi.Res Ethabi.Spec.DenotesOperation.functionArray Ethabi.Spec.staticSize.match_1 Ethabi.Token.string Ethabi.Operation Ethabi.Spec.WordJson Ethabi.Res.panic Ethabi.Spec.narrowAll._f Ethabi.strSlice Ethabi.ReadSt.lastItem Ethabi.ParamType.fixedBytes Ethabi.Token.int Ethabi.ParamType.int Ethabi.Profile.release Ethabi.StateMutability.pure Ethabi.Event.anonymous Ethabi.ParamType.below Ethabi.ParamType.tuple Ethabi.Spec.OptionalString.match_1 Ethabi.readClose Ethabi.Token.bytes Ethabi.hexDigit Ethabi.Token.display._f Ethabi.strSlice.match_1 Ethabi.Token.display.match_1 Ethabi.Spec.WithMembers Ethabi.Operation.receive Ethabi.splitAtByte Ethabi.Spec.staticSize Ethabi.Spec.DenotesParam Ethabi.Spec.narrow Ethabi.Spec.dataHold Ethabi.Spec.numberAt Ethabi.Spec.WithMembers.fixedArray Ethabi.Spec.WordJson.object Ethabi.ParamType.bool Ethabi.Spec.dynamic.match_1 Ethabi.Token.below_1 Ethabi.Err.utf8 Ethabi.ParamType.array Ethabi.ParamType.below_1 Ethabi.fromUtf8Lossy.match_3 Ethabi.Spec.DenotesMembers.nil Ethabi.ParamType.brecOn Ethabi.Spec.mutabilityWord Ethabi.Function.outputs Ethabi.ParamType.string Ethabi.digitsVal Ethabi.Spec.numeral Ethabi.TupleParam Ethabi.StateMutability Ethabi.Spec.staticSize._f Ethabi.Spec.lastNamed Ethabi.Props.declaredEvents._sparseCasesOn_1 Ethabi.Spec.hexDigitAny Ethabi.Spec.elementText.match_1 Ethabi.Spec.DenotesOperation.event Ethabi.second3 Ethabi.readStep Ethabi.ReadSt.topOpen Ethabi.Spec.numeral._sparseCasesOn_1 Ethabi.Spec.DenotesOperation.receive Ethabi.fromUtf8Lossy Ethabi.Operation.rec Ethabi.Token.display Ethabi.byteLen Ethabi.Spec.DenotesOperation.receiveArray Ethabi.fromUtf8Lossy.match_1 Ethabi.Event.mk Ethabi.Err.parseInt Ethabi.Spec.DenotesOperation.constructor Ethabi.Spec.DenotesTail Ethabi.Function.mk Ethabi.Token.casesOn Ethabi.hexByte Ethabi.Spec.typeNames.match_1 Ethabi.Spec.spaced Ethabi.Res.casesOn Ethabi.Spec.valueType Ethabi.Function.stateMutability Ethabi.Res.bind.match_1 Ethabi.Props.PicksEvent.bySignature Ethabi.Mode.direct Ethabi.utf8CharWidth Ethabi.hexNat Ethabi.Spec.readsAll Ethabi.ParamType.address Ethabi.EventParam.indexed Ethabi.Bytes Ethabi.Props.declaredEvents Ethabi.Token.brecOn Ethabi.Spec.topicType Ethabi.splitAtByte.match_1 Ethabi.Spec.eventTopic Ethabi.Spec.AroundTuple.array Ethabi.Res.err Ethabi.Function.inputs Ethabi.Operation.casesOn Ethabi.Spec.DenotesName Ethabi.Spec.readsAll.match_1 Ethabi.Command.encodeFunction Ethabi.Res.ok Ethabi.TupleParam.internalType Ethabi.Constructor.mk Ethabi.Spec.DenotesType Ethabi.Spec.DenotesTail.none Ethabi.Spec.staticSizeAll._f Ethabi.join.match_1 Ethabi.Spec.DenotesOperation Ethabi.byteLen.match_1 Ethabi.fromUtf8Lossy.match_5 Ethabi.EventParam Ethabi.Spec.dynamic Ethabi.beNat Ethabi.Json.null Ethabi.Function.name Ethabi.Profile.debug Ethabi.Spec.DenotesOperation.function Ethabi.Command.decodeParams Ethabi.Spec.reads.match_1 Ethabi.Spec.Once Ethabi.Token.address Ethabi.StateMutability.casesOn Ethabi.Res.instMonad Ethabi.Token.fixedBytes Ethabi.Spec.DenotesOperation.constructorArray Ethabi.Spec.DenotesType.plain Ethabi.StateMutability.payable Ethabi.Spec.Absent Ethabi.Spec.DenotesTail.constant Ethabi.ReadSt.subtypes Ethabi.Spec.argumentTopics Ethabi.ParamType.casesOn Ethabi.ParamType.brecOn_1 Ethabi.readFuel._f Ethabi.Spec.DenotesEach.cons Ethabi.readLoop.match_1 Ethabi.Spec.valueType.match_1 Ethabi.Spec.narrow._f Ethabi.Command Ethabi.Spec.signature Ethabi.join._sparseCasesOn_1 Ethabi.Token.below Ethabi.ParamType Ethabi.ParamType.ctorIdx Ethabi.Constructor Ethabi.Spec.payloadAt Ethabi.join Ethabi.Spec.WordJson.string Ethabi.indexSub Ethabi.Token Ethabi.isCont Ethabi.Token.rec Ethabi.Command.decodeFunction Ethabi.isDigit Ethabi.Command.encodeParams Ethabi.ParamType.brecOn.go Ethabi.parseUsize Ethabi.TupleParam.kind Ethabi.readLoop Ethabi.Token.uint Ethabi.Spec.numeral.match_1 Ethabi.ParamType.bytes Ethabi.Err Ethabi.Spec.typeNames Ethabi.readLoop._f Ethabi.Str Ethabi.EventParam.kind Ethabi.Token.rec_1 Ethabi.Props.PicksEvent.byName Ethabi.Operation.constructor Ethabi.Spec.readsAll._f Ethabi.Spec.DenotesMutability Ethabi.trailing._f Ethabi.Props.declaredEvents.match_1 Ethabi.Spec.AroundTuple.fixedArray Ethabi.ReadSt.subtuples Ethabi.Event.inputs Ethabi.Spec.WithMembers.array Ethabi.Props.Declares Ethabi.ReadSt.mk Ethabi.hexEncode Ethabi.Spec.reads._f Ethabi.Spec.signedBy Ethabi.ParamType.brecOn_1.go Ethabi.StateMutability.view Ethabi.Token.brecOn.go Ethabi.fromUtf8Lossy.match_7 Ethabi.join._f Ethabi.readFuel.match_1 Ethabi.stripPlus._sparseCasesOn_1 Ethabi.Json Ethabi.Token.bool Ethabi.Spec.DenotesOperation.fallback Ethabi.readOpen Ethabi.EventParam.mk Ethabi.Token.fixedArray Ethabi.Props.eventText Ethabi.Spec.DenotesMembers.cons Ethabi.Spec.narrow._sparseCasesOn_1 Ethabi.Word Ethabi.byteLen._f Ethabi.Spec.hexDigitAny.match_1 Ethabi.Spec.DenotesOperation.fallbackArray Ethabi.Spec.OptionalString Ethabi.Event.name Ethabi.Spec.CutAtParen Ethabi.trailing Ethabi.Spec.word Ethabi.trailing.match_1 Ethabi.Spec.narrow.match_1 Ethabi.Spec.DenotesMember.mk Ethabi.Spec.DenotesType.unused Ethabi.Err.serdeJson Ethabi.Spec.typeName.match_1
c77_determines_event_param Ethabi.stripPlus Ethabi.Err.hex Ethabi.Json.obj Ethabi.Json.str Ethabi.Res.rec Ethabi.Spec.DenotesMember Ethabi.stripPlus.match_1 Ethabi.arrayNum Ethabi.ParamType.uint Ethabi.startsWith Ethabi.Spec.AroundTuple Ethabi.Mode Ethabi.Spec.AroundTuple.tuple Ethabi.splitAtByte._f Ethabi.read Ethabi.EventParam.name Ethabi.Json.arr Ethabi.Spec.DenotesType.tuple Ethabi.Spec.KnownKeys Ethabi.indexVec Ethabi.ReadSt Ethabi.readLoop.match_3 Ethabi.TupleParam.mk Ethabi.lit Ethabi.Spec.DenotesEventParam Ethabi.Json.bool Ethabi.indexVec.match_1 Ethabi.TupleParam.name Ethabi.Err.other Ethabi.Err.invalidData Ethabi.Spec.entriesOf Ethabi.Spec.WithMembers.tuple Ethabi.readComma Ethabi.readElementary Ethabi.utf8Char Ethabi.ReadSt.nested Ethabi.Mode.buffered Ethabi.Json.num Ethabi.Spec.DefaultBool Ethabi.Err.invalidName Ethabi.ParamType.fixedArray Ethabi.readFuel Ethabi.Res.bind Ethabi.Spec.DenotesMembers Ethabi.Res Ethabi.Res.panic Ethabi.strSlice Ethabi.ReadSt.lastItem Ethabi.ParamType.fixedBytes Ethabi.ParamType.int Ethabi.ParamType.tuple Ethabi.Spec.OptionalString.match_1 Ethabi.readClose Ethabi.strSlice.match_1 Ethabi.Spec.WithMembers Ethabi.splitAtByte Ethabi.Spec.WithMembers.fixedArray Ethabi.ParamType.bool Ethabi.Err.utf8 Ethabi.ParamType.array Ethabi.Spec.DenotesMembers.nil Ethabi.ParamType.string Ethabi.digitsVal Ethabi.TupleParam Ethabi.readStep Ethabi.ReadSt.topOpen Ethabi.byteLen Ethabi.Err.parseInt Ethabi.Res.casesOn Ethabi.Res.bind.match_1 Ethabi.Mode.direct Ethabi.ParamType.address Ethabi.EventParam.indexed Ethabi.Bytes Ethabi.splitAtByte.match_1 Ethabi.Spec.AroundTuple.array Ethabi.Res.err Ethabi.Res.ok Ethabi.TupleParam.internalType Ethabi.Spec.DenotesType Ethabi.byteLen.match_1 Ethabi.EventParam Ethabi.Json.null Ethabi.Spec.Once Ethabi.Res.instMonad Ethabi.Spec.DenotesType.plain Ethabi.Spec.Absent Ethabi.ReadSt.subtypes Ethabi.readFuel._f Ethabi.readLoop.match_1 Ethabi.ParamType Ethabi.indexSub Ethabi.isDigit Ethabi.parseUsize Ethabi.TupleParam.kind Ethabi.readLoop Ethabi.ParamType.bytes Ethabi.Err Ethabi.readLoop._f Ethabi.Str Ethabi.EventParam.kind Ethabi.trailing._f Ethabi.Spec.AroundTuple.fixedArray Ethabi.ReadSt.subtuples Ethabi.Spec.WithMembers.array Ethabi.ReadSt.mk Ethabi.readFuel.match_1 Ethabi.stripPlus._sparseCasesOn_1 Ethabi.Json Ethabi.readOpen Ethabi.EventParam.mk Ethabi.Spec.DenotesMembers.cons Ethabi.byteLen._f Ethabi.Spec.OptionalString Ethabi.trailing Ethabi.trailing.match_1 Ethabi.Spec.DenotesMember.mk Ethabi.Spec.DenotesType.unused Ethabi.Err.serdeJson
c99_determines Ethabi.JsonGrammar.Escaped.pair Ethabi.Json.obj Ethabi.Json.str Ethabi.JsonGrammar.Digits Ethabi.JsonGrammar.Escaped.code Ethabi.Json.arr Ethabi.JsonGrammar.Entries Ethabi.Json.bool Ethabi.JsonGrammar.HexDigit Ethabi.JsonGrammar.Hex4 Ethabi.JsonGrammar.Value.array Ethabi.Json.num Ethabi.JsonGrammar.Value.false Ethabi.JsonGrammar.Exponent Ethabi.JsonGrammar.Escaped.plain Ethabi.JsonGrammar.Value.null Ethabi.JsonGrammar.Number.minus Ethabi.JsonGrammar.Value.true Ethabi.JsonGrammar.Chars Ethabi.JsonGrammar.Number.plus Ethabi.digitsVal Ethabi.JsonGrammar.Items Ethabi.JsonGrammar.Value.noItems Ethabi.JsonGrammar.Escaped.short Ethabi.JsonGrammar.Hex4.mk Ethabi.JsonGrammar.Value.number Ethabi.JsonGrammar.Items.more Ethabi.JsonGrammar.Whole Ethabi.JsonGrammar.Blank Ethabi.JsonGrammar.Chars.nil Ethabi.Json.null Ethabi.JsonGrammar.Value.object Ethabi.JsonGrammar.Escaped Ethabi.JsonGrammar.Value Ethabi.JsonGrammar.Value.noEntries Ethabi.JsonGrammar.Number Ethabi.JsonGrammar.Entries.one Ethabi.JsonGrammar.Value.string Ethabi.JsonGrammar.Fraction Ethabi.JsonGrammar.Items.one Ethabi.JsonGrammar.shorts Ethabi.Str Ethabi.JsonGrammar.Text Ethabi.JsonGrammar.Entries.more Ethabi.Json Ethabi.JsonGrammar.Chars.cons
c118_determines_tokenizers Ethabi.Spec.signedDecimal._sparseCasesOn_1 Ethabi.Err.hex Ethabi.Spec.hexadecimal Ethabi.Spec.sound Ethabi.HexReason.character Ethabi.Spec.hexFails Ethabi.ParamType.uint Ethabi.Spec.decDigit Ethabi.ParamType.rec Ethabi.Spec.hexText Ethabi.Spec.decimal Ethabi.Reason.notOpened Ethabi.Token.array Ethabi.ParamType.rec_1 Ethabi.Token.tuple Ethabi.Address Ethabi.lit Ethabi.Reason Ethabi.Reason.unknownFunction Ethabi.Reason.unknownEvent Ethabi.Spec.bytesIn Ethabi.U256 Ethabi.Err.other Ethabi.Err.invalidData Ethabi.Spec.failsForAt._f Ethabi.Spec.outside._f Ethabi.Spec.signedDecimal Ethabi.Err.invalidName Ethabi.ParamType.fixedArray Ethabi.Reason.hex Ethabi.Spec.numeral._f Ethabi.Token.string Ethabi.Spec.hexOfOtherLength Ethabi.ParamType.fixedBytes Ethabi.Token.int Ethabi.ParamType.int Ethabi.ParamType.below Ethabi.ParamType.tuple Ethabi.Reason.underflow Ethabi.Spec.hexFailsAt Ethabi.Token.bytes Ethabi.Spec.listOf Ethabi.Reason.invalidName Ethabi.Spec.signedDecimal.match_1 Ethabi.Spec.spans Ethabi.Spec.failsFor._f Ethabi.ParamType.bool Ethabi.Err.utf8 Ethabi.ParamType.array Ethabi.ParamType.below_1 Ethabi.ParamType.brecOn Ethabi.Spec.depth Ethabi.ParamType.string Ethabi.Spec.numeral Ethabi.Reason.decLength Ethabi.Spec.hexDigitAny Ethabi.Spec.elementText.match_1 Ethabi.Spec.intFails Ethabi.Spec.numeral._sparseCasesOn_1 Ethabi.Spec.denotesEach._f Ethabi.Reason.ambiguous Ethabi.Spec.decFails Ethabi.Err.parseInt Ethabi.Spec.denotes._f Ethabi.Spec.denotes.match_1 Ethabi.Spec.failsFor.match_1 Ethabi.ParamType.address Ethabi.Spec.denotesEach Ethabi.Spec.isHexDigit Ethabi.Spec.unmatched Ethabi.Bytes Ethabi.Reason.invalidData Ethabi.Told.ok Ethabi.Spec.cuts Ethabi.beNat Ethabi.Told.err Ethabi.Told.panic Ethabi.HexReason Ethabi.Tokenizer.lenient Ethabi.Token.address Ethabi.Token.fixedBytes Ethabi.ParamType.casesOn Ethabi.ParamType.brecOn_1 Ethabi.Spec.failsFor Ethabi.Spec.outside Ethabi.ParamType Ethabi.Spec.partOf Ethabi.Reason.overflow Ethabi.Spec.quoted Ethabi.Spec.spans._f Ethabi.Tokenizer Ethabi.Token Ethabi.Told Ethabi.Spec.outside.match_1 Ethabi.ParamType.brecOn.go Ethabi.Spec.bracketed Ethabi.Token.uint Ethabi.Spec.numeral.match_1 Ethabi.ParamType.bytes Ethabi.Err Ethabi.HexReason.odd Ethabi.Spec.spans.match_1 Ethabi.Str Ethabi.Spec.failsForAt.match_1 Ethabi.Spec.denotes Ethabi.Spec.isFullHex Ethabi.Reason.plainHex Ethabi.Reason.decCharacter Ethabi.Tokenizer.strict Ethabi.Reason.foreign Ethabi.Spec.partsThen Ethabi.ParamType.brecOn_1.go Ethabi.Spec.denotesEach.match_1 Ethabi.Token.bool Ethabi.Token.fixedArray Ethabi.Word Ethabi.Spec.hexDigitAny.match_1 Ethabi.Spec.isCut Ethabi.Err.serdeJson
c85_determines_encode_function Ethabi.Function Ethabi.Spec.signedDecimal._sparseCasesOn_1 Ethabi.Spec.DenotesEach Ethabi.Spec.typeNames._f Ethabi.stripPlus Ethabi.Profile Ethabi.Operation.fallback Ethabi.Props.PicksFunction Ethabi.Err.hex Ethabi.Param.name Ethabi.Json.obj Ethabi.Token.anyDynamic._f Ethabi.Event Ethabi.Json.str Ethabi.Spec.hexadecimal Ethabi.Spec.sound Ethabi.Res.rec Ethabi.Spec.DenotesMember Ethabi.stripPlus.match_1 Ethabi.arrayNum Ethabi.ParamType.uint Ethabi.Mediate.rec_1 Ethabi.startsWith Ethabi.Spec.decDigit Ethabi.ParamType.rec Ethabi.Spec.DenotesOperation.eventArray Ethabi.Spec.hexText Ethabi.Spec.AroundTuple Ethabi.instReprProfile.repr.match_1 Ethabi.StateMutability.rec Ethabi.Mode Ethabi.Spec.AroundTuple.tuple Ethabi.Token.anyDynamic Ethabi.Param.kind Ethabi.splitAtByte._f Ethabi.Spec.decimal Ethabi.padU32._proof_1 Ethabi.read Ethabi.Token.array Ethabi.u32add Ethabi.Mediate.tails Ethabi.encodeToken._f Ethabi.ParamType.rec_1 Ethabi.Mediate.tailLen._f Ethabi.Token.tuple Ethabi.Mediate.headLen Ethabi.EventParam.name Ethabi.Json.arr Ethabi.StateMutability.nonPayable Ethabi.Mediate.headLen._f Ethabi.Mediate.heads.match_1 Ethabi.Spec.DenotesType.tuple Ethabi.Spec.KnownKeys Ethabi.indexVec Ethabi.Param.mk Ethabi.ReadSt Ethabi.Address Ethabi.readLoop.match_3 Ethabi.TupleParam.mk Ethabi.lit Ethabi.Spec.DenotesEventParam Ethabi.Spec.DenotesTail.both Ethabi.Mediate.below Ethabi.Json.bool Ethabi.Spec.bytesIn Ethabi.Mediate.prefixedTuple Ethabi.padAddress._proof_1 Ethabi.Spec.mutabilityWord.match_1 Ethabi.U256 Ethabi.Token.ctorIdx Ethabi.indexVec.match_1 Ethabi.TupleParam.name Ethabi.Err.other Ethabi.Operation.event Ethabi.Command.decodeLog Ethabi.Err.invalidData Ethabi.Operation.ctorIdx Ethabi.Function.constant Ethabi.Spec.entriesOf Ethabi.Spec.DenotesEach.nil Ethabi.Spec.WithMembers.tuple Ethabi.readComma Ethabi.readElementary Ethabi.utf8Char Ethabi.Spec.typeName._f Ethabi.ReadSt.nested Ethabi.encodeTokens Ethabi.Mode.buffered Ethabi.Spec.outside._f Ethabi.Spec.signedDecimal Ethabi.Json.num Ethabi.u32mul Ethabi.Spec.DefaultBool Ethabi.Err.invalidName Ethabi.ParamType.fixedArray Ethabi.Props.PicksFunction.byName Ethabi.Props.textHash Ethabi.readFuel Ethabi.Spec.numeral._f Ethabi.Operation.function Ethabi.Res.bind Ethabi.Spec.DenotesMembers Ethabi.Param.internalType Ethabi.Mediate.tailLen Ethabi.Param Ethabi.Res Ethabi.Spec.DenotesOperation.functionArray Ethabi.Token.string Ethabi.machine Ethabi.Profile.casesOn Ethabi.Operation Ethabi.Spec.WordJson Ethabi.Mediate.heads._f Ethabi.Res.panic Ethabi.strSlice Ethabi.padAddress Ethabi.Mediate.below_1 Ethabi.ReadSt.lastItem Ethabi.ParamType.fixedBytes Ethabi.Token.int Ethabi.ParamType.int Ethabi.Profile.release Ethabi.Mediate Ethabi.StateMutability.pure Ethabi.Token.isDynamic._f Ethabi.Props.functionText Ethabi.Event.anonymous Ethabi.Mediate.sumHeadLen._f Ethabi.ParamType.below Ethabi.ParamType.tuple Ethabi.Props.declaredFunctions.match_1 Ethabi.Spec.OptionalString.match_1 Ethabi.readClose Ethabi.Mediate.tail._f Ethabi.Token.bytes Ethabi.Spec.listOf Ethabi.strSlice.match_1 Ethabi.Spec.WithMembers Ethabi.Operation.receive Ethabi.splitAtByte Ethabi.Spec.signedDecimal.match_1 Ethabi.Spec.DenotesParam Ethabi.Spec.spans Ethabi.Spec.WithMembers.fixedArray Ethabi.Spec.WordJson.object Ethabi.ParamType.bool Ethabi.Token.below_1 Ethabi.Err.utf8 Ethabi.ParamType.array Ethabi.ParamType.below_1 Ethabi.Spec.DenotesMembers.nil Ethabi.ParamType.brecOn Ethabi.Spec.mutabilityWord Ethabi.Function.outputs Ethabi.Mediate.headsZero._f Ethabi.Spec.depth Ethabi.ParamType.string Ethabi.digitsVal Ethabi.Spec.numeral Ethabi.TupleParam Ethabi.encodeTokens.match_1 Ethabi.StateMutability Ethabi.Mediate.sumLen._f Ethabi.Spec.hexDigitAny Ethabi.Spec.elementText.match_1 Ethabi.Spec.DenotesOperation.event Ethabi.Mediate.head Ethabi.readStep Ethabi.ReadSt.topOpen Ethabi.Spec.numeral._sparseCasesOn_1 Ethabi.Spec.DenotesOperation.receive Ethabi.Operation.rec Ethabi.Mediate.rawTuple Ethabi.Spec.denotesEach._f Ethabi.byteLen Ethabi.Mediate.brecOn_1.go Ethabi.Spec.DenotesOperation.receiveArray Ethabi.encodeHeadTail Ethabi.Event.mk Ethabi.Err.parseInt Ethabi.Spec.denotes._f Ethabi.Spec.DenotesOperation.constructor Ethabi.Mediate.head.match_1 Ethabi.Spec.DenotesTail Ethabi.Function.mk Ethabi.Token.casesOn Ethabi.Spec.typeNames.match_1 Ethabi.Res.casesOn Ethabi.Function.stateMutability Ethabi.Mediate.head._f Ethabi.Res.bind.match_1 Ethabi.padBytes Ethabi.Mediate.sumHeadLen.match_1 Ethabi.Spec.denotes.match_1 Ethabi.Mode.direct Ethabi.Mediate.prefixedArray Ethabi.ParamType.address Ethabi.Mediate.brecOn Ethabi.Mediate.sumHeadLen Ethabi.EventParam.indexed Ethabi.Token.anyDynamic.match_1 Ethabi.Bytes Ethabi.padChunk Ethabi.encodeToken.match_1 Ethabi.Token.isDynamic.match_1 Ethabi.splitAtByte.match_1 Ethabi.Spec.AroundTuple.array Ethabi.padFixedBytes Ethabi.Res.err Ethabi.Function.inputs Ethabi.Operation.casesOn Ethabi.Spec.cuts Ethabi.Props.declaredFunctions Ethabi.Spec.DenotesName Ethabi.Mediate.headLen.match_1 Ethabi.Command.encodeFunction Ethabi.Res.ok Ethabi.TupleParam.internalType Ethabi.Constructor.mk Ethabi.Spec.DenotesType Ethabi.Spec.DenotesTail.none Ethabi.beBytes.match_1 Ethabi.Spec.DenotesOperation Ethabi.byteLen.match_1 Ethabi.EventParam Ethabi.beNat Ethabi.Json.null Ethabi.Mediate.heads Ethabi.U256.toWord._proof_1 Ethabi.Token.brecOn_1.go Ethabi.Function.name Ethabi.Profile.debug Ethabi.Spec.DenotesOperation.function Ethabi.Command.decodeParams Ethabi.padU32 Ethabi.Mediate.raw Ethabi.asU32 Ethabi.Spec.Once Ethabi.Mediate.headsZero.match_1 Ethabi.Tokenizer.lenient Ethabi.Token.address Ethabi.StateMutability.casesOn Ethabi.Res.instMonad Ethabi.Token.fixedBytes Ethabi.Spec.DenotesOperation.constructorArray Ethabi.Spec.DenotesType.plain Ethabi.Mediate.tails._f Ethabi.StateMutability.payable Ethabi.Spec.Absent Ethabi.Spec.DenotesTail.constant Ethabi.ReadSt.subtypes Ethabi.Mediate.prefixed Ethabi.ParamType.casesOn Ethabi.padBool Ethabi.ParamType.brecOn_1 Ethabi.readFuel._f Ethabi.Mediate.assemble.match_1 Ethabi.Spec.DenotesEach.cons Ethabi.beBytes._f Ethabi.readLoop.match_1 Ethabi.Spec.outside Ethabi.U256.toWord Ethabi.Command Ethabi.Spec.signature Ethabi.Mediate.rec Ethabi.Token.below Ethabi.Mediate.prefixedArrayWithLength Ethabi.ParamType Ethabi.Spec.partOf Ethabi.Spec.quoted Ethabi.Spec.spans._f Ethabi.Constructor Ethabi.Tokenizer Ethabi.Spec.WordJson.string Ethabi.indexSub Ethabi.Token Ethabi.beBytes Ethabi.Token.rec Ethabi.encode Ethabi.Command.decodeFunction Ethabi.Spec.outside.match_1 Ethabi.isDigit Ethabi.Command.encodeParams Ethabi.ParamType.brecOn.go Ethabi.parseUsize Ethabi.TupleParam.kind Ethabi.readLoop Ethabi.padBool._proof_1 Ethabi.Spec.bracketed Ethabi.Token.uint Ethabi.Spec.numeral.match_1 Ethabi.ParamType.bytes Ethabi.Err Ethabi.Mediate.brecOn.go Ethabi.Spec.typeNames Ethabi.readLoop._f Ethabi.Props.declaredFunctions._sparseCasesOn_1 Ethabi.Spec.spans.match_1 Ethabi.Str Ethabi.EventParam.kind Ethabi.Props.PicksFunction.bySignature Ethabi.Token.rec_1 Ethabi.Spec.denotes Ethabi.encodeTokens._f Ethabi.Spec.isFullHex Ethabi.Operation.constructor Ethabi.Spec.DenotesMutability Ethabi.flattenWords Ethabi.Props.PrintsHex Ethabi.trailing._f Ethabi.Spec.AroundTuple.fixedArray Ethabi.Mediate.brecOn_1 Ethabi.ReadSt.subtuples Ethabi.Event.inputs Ethabi.Spec.WithMembers.array Ethabi.utf8 Ethabi.Props.Declares Ethabi.ReadSt.mk Ethabi.Tokenizer.strict Ethabi.ParamType.brecOn_1.go Ethabi.StateMutability.view Ethabi.Token.isDynamic._sparseCasesOn_1 Ethabi.Spec.denotesEach.match_1 Ethabi.readFuel.match_1 Ethabi.stripPlus._sparseCasesOn_1 Ethabi.Json Ethabi.Token.bool Ethabi.Spec.DenotesOperation.fallback Ethabi.readOpen Ethabi.EventParam.mk Ethabi.Token.fixedArray Ethabi.Mediate.tail.match_1 Ethabi.Mediate.assemble Ethabi.Spec.DenotesMembers.cons Ethabi.Word Ethabi.padChunk._proof_2 Ethabi.byteLen._f Ethabi.Spec.hexDigitAny.match_1 Ethabi.Spec.DenotesOperation.fallbackArray Ethabi.Spec.OptionalString Ethabi.Event.name Ethabi.Mediate.casesOn Ethabi.Spec.CutAtParen Ethabi.trailing Ethabi.trailing.match_1 Ethabi.Spec.DenotesMember.mk Ethabi.Spec.isCut Ethabi.Spec.DenotesType.unused Ethabi.Profile.rec Ethabi.Err.serdeJson Ethabi.Spec.typeName.match_1 Ethabi.Token.brecOn_1
c77_determines_param Ethabi.stripPlus Ethabi.Err.hex Ethabi.Param.name Ethabi.Json.obj Ethabi.Json.str Ethabi.Res.rec Ethabi.Spec.DenotesMember Ethabi.stripPlus.match_1 Ethabi.arrayNum Ethabi.ParamType.uint Ethabi.startsWith Ethabi.Spec.AroundTuple Ethabi.Mode Ethabi.Spec.AroundTuple.tuple Ethabi.Param.kind Ethabi.splitAtByte._f Ethabi.read Ethabi.Json.arr Ethabi.Spec.DenotesType.tuple Ethabi.Spec.KnownKeys Ethabi.indexVec Ethabi.Param.mk Ethabi.ReadSt Ethabi.readLoop.match_3 Ethabi.TupleParam.mk Ethabi.lit Ethabi.Json.bool Ethabi.indexVec.match_1 Ethabi.TupleParam.name Ethabi.Err.other Ethabi.Err.invalidData Ethabi.Spec.entriesOf Ethabi.Spec.WithMembers.tuple Ethabi.readComma Ethabi.readElementary Ethabi.utf8Char Ethabi.ReadSt.nested Ethabi.Mode.buffered Ethabi.Json.num Ethabi.Err.invalidName Ethabi.ParamType.fixedArray Ethabi.readFuel Ethabi.Res.bind Ethabi.Spec.DenotesMembers Ethabi.Param.internalType Ethabi.Param Ethabi.Res Ethabi.Res.panic Ethabi.strSlice Ethabi.ReadSt.lastItem Ethabi.ParamType.fixedBytes Ethabi.ParamType.int Ethabi.ParamType.tuple Ethabi.Spec.OptionalString.match_1 Ethabi.readClose Ethabi.strSlice.match_1 Ethabi.Spec.WithMembers Ethabi.splitAtByte Ethabi.Spec.DenotesParam Ethabi.Spec.WithMembers.fixedArray Ethabi.ParamType.bool Ethabi.Err.utf8 Ethabi.ParamType.array Ethabi.Spec.DenotesMembers.nil Ethabi.ParamType.string Ethabi.digitsVal Ethabi.TupleParam Ethabi.readStep Ethabi.ReadSt.topOpen Ethabi.byteLen Ethabi.Err.parseInt Ethabi.Res.casesOn Ethabi.Res.bind.match_1 Ethabi.Mode.direct Ethabi.ParamType.address Ethabi.Bytes Ethabi.splitAtByte.match_1 Ethabi.Spec.AroundTuple.array Ethabi.Res.err Ethabi.Res.ok Ethabi.TupleParam.internalType Ethabi.Spec.DenotesType Ethabi.byteLen.match_1 Ethabi.Json.null Ethabi.Spec.Once Ethabi.Res.instMonad Ethabi.Spec.DenotesType.plain Ethabi.Spec.Absent Ethabi.ReadSt.subtypes Ethabi.readFuel._f Ethabi.readLoop.match_1 Ethabi.ParamType Ethabi.indexSub Ethabi.isDigit Ethabi.parseUsize Ethabi.TupleParam.kind Ethabi.readLoop Ethabi.ParamType.bytes Ethabi.Err Ethabi.readLoop._f Ethabi.Str Ethabi.trailing._f Ethabi.Spec.AroundTuple.fixedArray Ethabi.ReadSt.subtuples Ethabi.Spec.WithMembers.array Ethabi.ReadSt.mk Ethabi.readFuel.match_1 Ethabi.stripPlus._sparseCasesOn_1 Ethabi.Json Ethabi.readOpen Ethabi.Spec.DenotesMembers.cons Ethabi.byteLen._f Ethabi.Spec.OptionalString Ethabi.trailing Ethabi.trailing.match_1 Ethabi.Spec.DenotesMember.mk Ethabi.Spec.DenotesType.unused Ethabi.Err.serdeJson
c105_determines_execute Ethabi.asUsize Ethabi.Function Ethabi.ParamType.isDynamic.match_1 Ethabi.Spec.DenotesEach Ethabi.deString._sparseCasesOn_1 Ethabi.OpSt.mk Ethabi.Json.below_1 Ethabi.JsonGrammar.Begun.nil Ethabi.stripPlus Ethabi.mutabilityVariant Ethabi.deVec._f Ethabi.Profile Ethabi.Operation.fallback Ethabi.Event.signature Ethabi.Err.hex Ethabi.Token.allCheck._f Ethabi.deParamFields Ethabi.ParamType.array.noConfusion Ethabi.Param.name Ethabi.JsonGrammar.Opens.match_1 Ethabi.JsonGrammar.Escaped.pair Ethabi.Json.obj Ethabi.Command.casesOn Ethabi.Token.anyDynamic._f Ethabi.Spec.ParamFine Ethabi.deComponents Ethabi.ParamType.bytes.elim Ethabi.Event Ethabi.sliceFrom Ethabi.Json.str Ethabi.ParamType.decEq.match_5 Ethabi.cliDecodeLog Ethabi.Res.rec Ethabi.Spec.DenotesMember Ethabi.stripPlus.match_1 Ethabi.ParamType.isDynamic Ethabi.JsonGrammar.Digits Ethabi.deComponents._sparseCasesOn_1 Ethabi.Token.tupleCheck._f Ethabi.Json.rec Ethabi.Props.CrashesEarlyBytes Ethabi.decodeParam.match_1 Ethabi.typedLines._f Ethabi.arrayNum Ethabi.ParamType.uint Ethabi.pushEntry Ethabi.deOperationSeq Ethabi.Spec.CrashesOperation.event Ethabi.Mediate.rec_1 Ethabi.Contract.functionsByName Ethabi.hexDecode._sparseCasesOn_1 Ethabi.ParamType.address.elim Ethabi.startsWith Ethabi.ParamType.rec Ethabi.cliDecodeOutput Ethabi.loadFunction Ethabi.Spec.DenotesOperation.eventArray Ethabi.Spec.CrashesEventParam.components Ethabi.deStateMutability._sparseCasesOn_4 Ethabi.Spec.AroundTuple Ethabi.instReprProfile.repr.match_1 Ethabi.StateMutability.rec Ethabi.Mode Ethabi.FieldSt.internalType Ethabi.Token.typeCheck.match_16 Ethabi.decodeParams._f Ethabi.Function.signature Ethabi.Spec.AroundTuple.tuple Ethabi.JsonGrammar.Escaped.code Ethabi.deOperationSeq._sparseCasesOn_1 Ethabi.Token.anyDynamic Ethabi.Function.decodeOutput Ethabi.Param.kind Ethabi.second4 Ethabi.parseTokens._f Ethabi.longSignature Ethabi.splitAtByte._f Ethabi.tokenizeArray Ethabi.Token.typeCheck._sparseCasesOn_10 Ethabi.mapIndex Ethabi.padU32._proof_1 Ethabi.read Ethabi.parseTokens.match_1 Ethabi.deContract Ethabi.deArr.match_1 Ethabi.Token.array Ethabi.u32add Ethabi.RawLog.data Ethabi.typedLines Ethabi.ParamType.isDynamic._f Ethabi.Token.typeCheck.match_13 Ethabi.Mediate.tails Ethabi.deTupleParams.match_1 Ethabi.Token.displayAll.match_1 Ethabi.ParamType.noConfusion Ethabi.encodeToken._f Ethabi.ParamType.rec_1 Ethabi.instDecidableEqParamType Ethabi.Mediate.tailLen._f Ethabi.ParamType.isEmptyBytesValidEncoding Ethabi.Token.tuple Ethabi.Mediate.headLen Ethabi.JsonGrammar.Opens Ethabi.EventParam.name Ethabi.tokenizeInt Ethabi.Event.parseLog Ethabi.lenientInt Ethabi.Event.checkSignature.match_1 Ethabi.Json.arr Ethabi.writeAll.match_1 Ethabi.cliEncodeInput Ethabi.deEventSeq Ethabi.StateMutability.nonPayable Ethabi.RawLog Ethabi.Mediate.headLen._f Ethabi.Mediate.heads.match_1 Ethabi.Spec.DenotesType.tuple Ethabi.tokenizeFixedArray Ethabi.Spec.KnownKeys Ethabi.Token.displayAll._f Ethabi.Token.typeCheck._sparseCasesOn_1 Ethabi.indexVec Ethabi.Param.mk Ethabi.ReadSt Ethabi.replacementChar Ethabi.Address Ethabi.Json.below Ethabi.readLoop.match_3 Ethabi.TupleParam.mk Ethabi.lit Ethabi.decodeOutputOf Ethabi.Token.typesCheck Ethabi.Spec.DenotesEventParam Ethabi.JsonGrammar.Entries Ethabi.deOperations.match_1 Ethabi.peek32 Ethabi.Spec.DenotesTail.both Ethabi.Contract.add Ethabi.Mediate.below Ethabi.Json.bool Ethabi.LogParam Ethabi.Token.zipCheck Ethabi.openAbi Ethabi.Mediate.prefixedTuple Ethabi.Mode.rec Ethabi.padAddress._proof_1 Ethabi.deArr._sparseCasesOn_1 Ethabi.Token.zipCheck._f Ethabi.execute Ethabi.tokenize Ethabi.Contract.receive Ethabi.splitTag.match_3 Ethabi.Spec.mutabilityWord.match_1 Ethabi.U256 Ethabi.Json.ctorIdx Ethabi.Token.ctorIdx Ethabi.indexVec.match_1 Ethabi.JsonGrammar.HexDigit Ethabi.Contract.add.match_1 Ethabi.FieldSt Ethabi.TupleParam.name Ethabi.selectFunction.match_6 Ethabi.readPairs.match_1 Ethabi.strictFixedBytes Ethabi.Err.other Ethabi.Spec.CrashesParam.components Ethabi.logParams._f Ethabi.Operation.event Ethabi.Command.decodeLog Ethabi.Err.invalidData Ethabi.deParamFields._f Ethabi.JsonGrammar.Hex4 Ethabi.Function.constant Ethabi.encodeInputOf Ethabi.selectEvent.match_3 Ethabi.Spec.entriesOf Ethabi.ParamType.decEq.match_1 Ethabi.Spec.DenotesEach.nil Ethabi.Spec.WithMembers.tuple Ethabi.readComma Ethabi.fromUtf8Lossy._f Ethabi.readElementary Ethabi.Spec.CrashesOperation.function Ethabi.JsonGrammar.Value.array Ethabi.utf8Char Ethabi.typedLines.match_1 Ethabi.RawLog.topics Ethabi.Spec.CrashesEventParam Ethabi.ParamType.string.elim Ethabi.usizeAdd Ethabi.ParamType.fixedBytes.elim Ethabi.ReadSt.nested Ethabi.encodeTokens Ethabi.Mode.buffered Ethabi.deName Ethabi.Json.num Ethabi.takeBytes Ethabi.u32mul Ethabi.Event.paramsNames Ethabi.Spec.DefaultBool Ethabi.Err.invalidName Ethabi.ParamType.fixedArray Ethabi.readFuel Ethabi.deOperations Ethabi.logParams.match_1 Ethabi.required Ethabi.lenientUint.match_1 Ethabi.JsonGrammar.Value.false Ethabi.Operation.function Ethabi.decodeLoop.match_1 Ethabi.Res.bind Ethabi.Spec.DenotesMembers Ethabi.Param.internalType Ethabi.Mediate.tailLen Ethabi.ParamType.ctorElim Ethabi.Param Ethabi.Res Ethabi.Spec.DenotesOperation.functionArray Ethabi.Token.string Ethabi.machine Ethabi.Token.typeCheck._sparseCasesOn_16 Ethabi.setTupleComponents.match_1 Ethabi.Function.inputParamTypes Ethabi.Profile.casesOn Ethabi.Operation Ethabi.deVec.match_1 Ethabi.deFunctionSeq.match_3 Ethabi.JsonGrammar.Exponent Ethabi.Command.rec Ethabi.ParamType.tuple.elim Ethabi.Spec.WordJson Ethabi.Mediate.heads._f Ethabi.removeSpaces Ethabi.OpSt.constant Ethabi.FieldSt.kind Ethabi.Res.panic Ethabi.strSlice Ethabi.padAddress Ethabi.Mediate.below_1 Ethabi.ReadSt.lastItem Ethabi.strictString Ethabi.loadEvent Ethabi.ParamType.fixedBytes Ethabi.Token.int Ethabi.ParamType.int Ethabi.Profile.release Ethabi.Mediate Ethabi.Token.beqList._sparseCasesOn_2 Ethabi.JsonGrammar.Escaped.plain Ethabi.StateMutability.pure Ethabi.Token.isDynamic._f Ethabi.strictAddress Ethabi.Spec.CrashesAt Ethabi.Event.anonymous Ethabi.Mediate.sumHeadLen._f Ethabi.ParamType.below Ethabi.OpSt Ethabi.ParamType.tuple Ethabi.copyWord Ethabi.endOfSeq Ethabi.Token.zipCheck.match_1 Ethabi.JsonGrammar.Value.null Ethabi.Spec.OptionalString.match_1 Ethabi.readClose Ethabi.ParamType.decEqList.match_1 Ethabi.Spec.ArrayFine Ethabi.Token.tupleCheck.match_1 Ethabi.pieceLoop.match_1 Ethabi.Mediate.tail._f Ethabi.Token.bytes Ethabi.fromDecStr Ethabi.hexDigit Ethabi.JsonGrammar.Number.minus Ethabi.pushEntry._f Ethabi.Token.display._f Ethabi.strSlice.match_1 Ethabi.Token.display.match_1 Ethabi.LogParam.value Ethabi.Spec.WithMembers Ethabi.JsonGrammar.Value.true Ethabi.JsonGrammar.Chars Ethabi.Operation.receive Ethabi.Spec.CrashesOperation.eventArray Ethabi.splitAtByte Ethabi.deString Ethabi.Spec.DenotesParam Ethabi.Spec.WithMembers.fixedArray Ethabi.ParamType.fixedArray.noConfusion Ethabi.Token.typeCheck Ethabi.Token.typeCheck._sparseCasesOn_4 Ethabi.deStateMutability.match_1 Ethabi.deTupleFields.match_1 Ethabi.Spec.WordJson.object Ethabi.ParamType.bool Ethabi.selectEvent.match_1 Ethabi.ParamType.isDynamic._sparseCasesOn_1 Ethabi.Token.below_1 Ethabi.convertTopicParamType.match_1 Ethabi.innerTuple._sparseCasesOn_1 Ethabi.Err.utf8 Ethabi.ParamType.array Ethabi.Json.rec_2 Ethabi.strictInt Ethabi.ParamType.below_1 Ethabi.JsonGrammar.Number.plus Ethabi.readPairs._f Ethabi.FieldSt.name Ethabi.lenientUint Ethabi.fromUtf8Lossy.match_3 Ethabi.Spec.DenotesMembers.nil Ethabi.JsonGrammar.RendersBytes Ethabi.ParamType.brecOn Ethabi.extendInner._f Ethabi.Spec.mutabilityWord Ethabi.OpSt.stateMutability Ethabi.Function.outputs Ethabi.Spec.FunctionFine Ethabi.Mediate.headsZero._f Ethabi.ParamType.string Ethabi.Tokenizer.rec Ethabi.int256Max Ethabi.deEventOpFields._f Ethabi.digitsVal Ethabi.TupleParam Ethabi.encodeTokens.match_1 Ethabi.StateMutability Ethabi.JsonGrammar.Items Ethabi.Mediate.sumLen._f Ethabi.Log.mk Ethabi.Token.typeCheck.match_7 Ethabi.deComponents.match_1 Ethabi.Contract.fallback Ethabi.Function.outputParamTypes Ethabi.Contract.eventsByName.match_1 Ethabi.JsonGrammar.Value.noItems Ethabi.deVec Ethabi.ParamType.uint.elim Ethabi.Spec.CrashesParam.type Ethabi.deKind Ethabi.Spec.DenotesOperation.event Ethabi.second3 Ethabi.deString.match_1 Ethabi.Mediate.head Ethabi.readStep Ethabi.JsonGrammar.Escaped.short Ethabi.ReadSt.topOpen Ethabi.Token.typeCheck.match_10 Ethabi.Function.encodeInput Ethabi.deEvent Ethabi.deBool Ethabi.wordAddress._proof_1 Ethabi.RawLog.mk Ethabi.Spec.DenotesOperation.receive Ethabi.fromUtf8Lossy Ethabi.shortSignature Ethabi.Spec.CrashesOperation.functionArrayInputs Ethabi.Contract.functionsByName.match_1 Ethabi.Operation.rec Ethabi.Token.display Ethabi.Mediate.rawTuple Ethabi.deEventSeq.match_1 Ethabi.OpSt.anonymous Ethabi.getEntry Ethabi.decode Ethabi.deTupleFields._f Ethabi.Spec.CrashesOperation.functionArrayOutputs Ethabi.required.match_1 Ethabi.byteLen Ethabi.ParamType.fixedBytes.noConfusion Ethabi.JsonGrammar.Hex4.mk Ethabi.Mediate.brecOn_1.go Ethabi.Event.paramTypes Ethabi.Spec.DenotesOperation.receiveArray Ethabi.OpSt.eventInputs Ethabi.fromUtf8Lossy.match_1 Ethabi.encodeHeadTail Ethabi.Spec.CrashesOperation.constructorArray Ethabi.Event.mk Ethabi.decodeLoop.match_5 Ethabi.deBool.match_1 Ethabi.Err.parseInt Ethabi.FieldSt.components Ethabi.Spec.DenotesOperation.constructor Ethabi.hashSignature Ethabi.hexDecode._f Ethabi.Mediate.head.match_1 Ethabi.Spec.DenotesTail Ethabi.natText Ethabi.Function.mk Ethabi.Token.casesOn Ethabi.hexByte Ethabi.tokenize._f Ethabi.deConstructorSeq Ethabi.writeAll._f Ethabi.cliDecodeParams Ethabi.peek Ethabi.convertTopicParamType Ethabi.Res.casesOn Ethabi.FieldSt.indexed Ethabi.sanitizeName Ethabi.deTupleParam._f Ethabi.write Ethabi.Function.stateMutability Ethabi.strBytes Ethabi.Mediate.head._f Ethabi.JsonGrammar.Value.number Ethabi.Res.bind.match_1 Ethabi.Json.brecOn Ethabi.Contract.events Ethabi.padBytes Ethabi.tokenizeUint.match_1 Ethabi.Mediate.sumHeadLen.match_1 Ethabi.ParamType.decEq._f Ethabi.Mode.direct Ethabi.utf8CharWidth Ethabi.decodeParams.match_1 Ethabi.deStateMutability Ethabi.hexNat Ethabi.Spec.CrashesEventParam.type Ethabi.Spec.CrashesOperation.constructor Ethabi.Mediate.prefixedArray Ethabi.ParamType.address Ethabi.Mediate.brecOn Ethabi.JsonGrammar.Items.more Ethabi.Mediate.sumHeadLen Ethabi.deFunctionFields.match_1 Ethabi.EventParam.indexed Ethabi.Token.anyDynamic.match_1 Ethabi.JsonGrammar.Whole Ethabi.logParams Ethabi.Bytes Ethabi.pushEntry.match_1 Ethabi.finishTupleParam Ethabi.innerTuple._f Ethabi.padChunk Ethabi.extendInner Ethabi.innerTuple Ethabi.signatureName Ethabi.Token.brecOn Ethabi.encodeToken.match_1 Ethabi.Mode.casesOn Ethabi.Token.isDynamic.match_1 Ethabi.deConstructor Ethabi.splitAtByte.match_1 Ethabi.Spec.AroundTuple.array Ethabi.padFixedBytes Ethabi.nextElement Ethabi.Res.err Ethabi.Function.inputs Ethabi.parseHashes Ethabi.deStateMutability._sparseCasesOn_3 Ethabi.Operation.casesOn Ethabi.deTupleParam._sparseCasesOn_1 Ethabi.JsonGrammar.Blank Ethabi.JsonGrammar.Chars.nil Ethabi.Spec.DenotesName Ethabi.deConstructorFields Ethabi.Mediate.headLen.match_1 Ethabi.Command.encodeFunction Ethabi.Res.ok Ethabi.TupleParam.internalType Ethabi.ParamType.int.noConfusion Ethabi.Constructor.mk Ethabi.Spec.DenotesType Ethabi.strictBytes Ethabi.Spec.DenotesTail.none Ethabi.beBytes.match_1 Ethabi.join.match_1 Ethabi.Spec.DenotesOperation Ethabi.deOperation._sparseCasesOn_5 Ethabi.deTupleFields.match_3 Ethabi.mapIndex.match_1 Ethabi.deComponents._f Ethabi.byteLen.match_1 Ethabi.fromUtf8Lossy.match_5 Ethabi.U256.ofWord Ethabi.deFunction Ethabi.EventParam Ethabi.deStateMutability._sparseCasesOn_1 Ethabi.beNat Ethabi.Json.null Ethabi.readPairs._sparseCasesOn_1 Ethabi.selectFunction.match_3 Ethabi.Mediate.heads Ethabi.U256.toWord._proof_1 Ethabi.Token.brecOn_1.go Ethabi.deParam Ethabi.Function.name Ethabi.deKind.match_1 Ethabi.JsonGrammar.Value.object Ethabi.parseTokens Ethabi.Profile.debug Ethabi.Spec.ComponentsFine Ethabi.wordLow Ethabi.decodeParams Ethabi.deFunctionFields Ethabi.Spec.DenotesOperation.function Ethabi.Command.decodeParams Ethabi.selectEvent Ethabi.padU32 Ethabi.Mediate.raw Ethabi.asU32 Ethabi.Spec.Once Ethabi.Contract.functions Ethabi.Mediate.headsZero.match_1 Ethabi.JsonGrammar.Escaped Ethabi.Tokenizer.lenient Ethabi.Token.address Ethabi.StateMutability.casesOn Ethabi.Res.instMonad Ethabi.deEventFields Ethabi.Token.fixedBytes Ethabi.asBool Ethabi.JsonGrammar.BreaksOffBytes Ethabi.execute.match_1 Ethabi.Token.allCheck.match_1 Ethabi.JsonGrammar.Value Ethabi.innerTuple.match_1 Ethabi.Spec.DenotesOperation.constructorArray Ethabi.JsonGrammar.Encodes Ethabi.ParamType.decEqList._f Ethabi.Spec.DenotesType.plain Ethabi.ParamType.usizeOkAll.match_1 Ethabi.Event.checkSignature Ethabi.pieceLoop Ethabi.Mediate.tails._f Ethabi.StateMutability.payable Ethabi.decodeLoop._f Ethabi.Spec.Absent Ethabi.Spec.DenotesTail.constant Ethabi.JsonGrammar.Value.noEntries Ethabi.ReadSt.subtypes Ethabi.deEventFields._f Ethabi.Mediate.prefixed Ethabi.selectFunction.match_1 Ethabi.ParamType.casesOn Ethabi.decodeLoop.match_3 Ethabi.padBool Ethabi.deFunctionSeq.match_7 Ethabi.ParamType.brecOn_1 Ethabi.readFuel._f Ethabi.JsonGrammar.Number Ethabi.deConstructorFields._f Ethabi.Mediate.assemble.match_1 Ethabi.Spec.EventParamFine Ethabi.Token.typeCheck._sparseCasesOn_7 Ethabi.Spec.DenotesEach.cons Ethabi.Spec.TypeFine Ethabi.beBytes._f Ethabi.JsonGrammar.Begun Ethabi.strictBool Ethabi.readLoop.match_1 Ethabi.ParamType.int.elim Ethabi.Token.typeCheck.match_19 Ethabi.ParamType.decEq.match_3 Ethabi.U256.toWord Ethabi.Command Ethabi.ParamType.fixedArray.elim Ethabi.tokenizeUint Ethabi.Contract.constructor Ethabi.decLoop._f Ethabi.hexDecode Ethabi.join._sparseCasesOn_1 Ethabi.tokenizers._f Ethabi.Mediate.rec Ethabi.Token.below Ethabi.Mediate.prefixedArrayWithLength Ethabi.ParamType Ethabi.Token.typeCheck.match_1 Ethabi.decodeLoop Ethabi.tokenizeStruct Ethabi.ParamType.array.elim Ethabi.splitTag._f Ethabi.JsonGrammar.Entries.one Ethabi.ParamType.ctorIdx Ethabi.Constructor Ethabi.Props.CrashesBytes Ethabi.Tokenizer Ethabi.JsonGrammar.Holds Ethabi.join Ethabi.decLoop Ethabi.Spec.WordJson.string Ethabi.writeForAbi.match_1 Ethabi.indexSub Ethabi.Token Ethabi.beBytes Ethabi.Contract.eventsByName Ethabi.ParamType.noConfusionType Ethabi.isCont Ethabi.Token.rec Ethabi.encode Ethabi.Command.decodeFunction Ethabi.Json.below_3 Ethabi.convertTopicParamType._sparseCasesOn_1 Ethabi.parseHashes._f Ethabi.isDigit Ethabi.deStateMutability._sparseCasesOn_2 Ethabi.Command.encodeParams Ethabi.ParamType.brecOn.go Ethabi.deOperations._f Ethabi.Token.typeCheck._f Ethabi.parseUsize Ethabi.JsonGrammar.Value.string Ethabi.decLoop.match_1 Ethabi.TupleParam.kind Ethabi.readLoop Ethabi.tokenizePieces Ethabi.padBool._proof_1 Ethabi.LogParam.mk Ethabi.selectFunction._sparseCasesOn_3 Ethabi.Token.uint Ethabi.JsonGrammar.Fraction Ethabi.deOperation Ethabi.readAll Ethabi.ParamType.bytes Ethabi.JsonGrammar.Items.one Ethabi.Err Ethabi.Mediate.brecOn.go Ethabi.ParamType.isEmptyBytesValidEncoding.match_1 Ethabi.JsonGrammar.shorts Ethabi.Contract.mk Ethabi.ParamType.anyDynamic._f Ethabi.Tokenizer.casesOn Ethabi.readLoop._f Ethabi.splitTag Ethabi.hexVal Ethabi.slice Ethabi.hexDecode.match_1 Ethabi.Str Ethabi.writeForAbi._f Ethabi.ParamType.decEq Ethabi.EventParam.kind Ethabi.deOperation.match_5 Ethabi.deFunctionFields._f Ethabi.Token.rec_1 Ethabi.LogParam.name Ethabi.cliEncodeParams Ethabi.encodeTokens._f Ethabi.tokenizerOf Ethabi.Log.params Ethabi.Json.casesOn Ethabi.JsonGrammar.Text Ethabi.setTupleComponents Ethabi.Json.rec_3 Ethabi.Operation.constructor Ethabi.Spec.DenotesMutability Ethabi.readAll.match_1 Ethabi.flattenWords Ethabi.trailing._f Ethabi.tokenize.match_1 Ethabi.pieceLoop._f Ethabi.FieldSt.mk Ethabi.Json.brecOn.go Ethabi.signatureText Ethabi.Spec.AroundTuple.fixedArray Ethabi.Mediate.brecOn_1 Ethabi.ReadSt.subtuples Ethabi.Event.inputs Ethabi.deFunctionSeq Ethabi.JsonGrammar.Begun.cons Ethabi.Spec.WithMembers.array Ethabi.strictUint Ethabi.utf8 Ethabi.ReadSt.mk Ethabi.Contract Ethabi.writeForAbi Ethabi.Tokenizer.strict Ethabi.JsonGrammar.Entries.more Ethabi.ParamType.anyDynamic Ethabi.hexEncode Ethabi.decodeLogOf Ethabi.Json.rec_1 Ethabi.deEventOpFields Ethabi.wordAddress Ethabi.Event.indexedParams Ethabi.ParamType.brecOn_1.go Ethabi.deFunctionSeq.match_5 Ethabi.StateMutability.view Ethabi.OpSt.name Ethabi.Spec.CrashesOperation Ethabi.Json.below_2 Ethabi.Token.isDynamic._sparseCasesOn_1 Ethabi.ParamType.tuple.noConfusion Ethabi.Spec.EventFine Ethabi.ParamType.uint.noConfusion Ethabi.Token.brecOn.go Ethabi.fromUtf8Lossy.match_7 Ethabi.readAll._f Ethabi.join._f Ethabi.Token.typeCheck.match_4 Ethabi.readFuel.match_1 Ethabi.stripPlus._sparseCasesOn_1 Ethabi.Json Ethabi.Token.bool Ethabi.Spec.DenotesOperation.fallback Ethabi.deOperation.match_1 Ethabi.readOpen Ethabi.getEntry._f Ethabi.EventParam.mk Ethabi.deOperationSeq.match_1 Ethabi.Token.typeCheck._sparseCasesOn_13 Ethabi.Log Ethabi.deEventParam Ethabi.Token.fixedArray Ethabi.Mediate.tail.match_1 Ethabi.Mediate.assemble Ethabi.JsonGrammar.Chars.cons Ethabi.Spec.DenotesMembers.cons Ethabi.splitTag.match_1 Ethabi.ParamType.ctorElimType Ethabi.Spec.CrashesParam Ethabi.Word Ethabi.padChunk._proof_2 Ethabi.OpSt.inputs Ethabi.readPairs Ethabi.byteLen._f Ethabi.tokenizers.match_1 Ethabi.deBool._sparseCasesOn_1 Ethabi.OpSt.outputs Ethabi.deTupleParam.match_1 Ethabi.ParamType.isEmptyBytesValidEncoding._sparseCasesOn_1 Ethabi.Spec.DenotesOperation.fallbackArray Ethabi.Spec.OptionalString Ethabi.selectFunction Ethabi.deFunctionSeq.match_1 Ethabi.Event.name Ethabi.Mediate.casesOn Ethabi.deArr Ethabi.ParamType.bool.elim Ethabi.Spec.CutAtParen Ethabi.openAbi.match_1 Ethabi.deOperation.match_3 Ethabi.trailing Ethabi.hexDecode.match_4 Ethabi.emptyDataMsg Ethabi.trailing.match_1 Ethabi.Spec.DenotesMember.mk Ethabi.decodeParam._f Ethabi.Spec.DenotesType.unused Ethabi.Profile.rec Ethabi.tokenizeStruct.match_1 Ethabi.Err.serdeJson Ethabi.deTupleParams._f Ethabi.Token.brecOn_1
c93_determines_tokenizers Ethabi.Spec.fails.match_1 Ethabi.Spec.signedDecimal._sparseCasesOn_1 Ethabi.Spec.fails Ethabi.Err.hex Ethabi.Spec.hexadecimal Ethabi.Spec.sound Ethabi.ParamType.uint Ethabi.Spec.decDigit Ethabi.ParamType.rec Ethabi.Spec.hexText Ethabi.Spec.decimal Ethabi.Token.array Ethabi.ParamType.rec_1 Ethabi.Token.tuple Ethabi.Address Ethabi.lit Ethabi.Spec.bytesIn Ethabi.Spec.fails._f Ethabi.U256 Ethabi.Err.other Ethabi.Err.invalidData Ethabi.Spec.outside._f Ethabi.Spec.signedDecimal Ethabi.Err.invalidName Ethabi.ParamType.fixedArray Ethabi.Spec.numeral._f Ethabi.Res Ethabi.Token.string Ethabi.Spec.hexOfOtherLength Ethabi.Res.panic Ethabi.ParamType.fixedBytes Ethabi.Token.int Ethabi.ParamType.int Ethabi.ParamType.below Ethabi.ParamType.tuple Ethabi.Token.bytes Ethabi.Spec.listOf Ethabi.Spec.signedDecimal.match_1 Ethabi.Spec.spans Ethabi.ParamType.bool Ethabi.Err.utf8 Ethabi.ParamType.array Ethabi.ParamType.below_1 Ethabi.ParamType.brecOn Ethabi.Spec.depth Ethabi.ParamType.string Ethabi.Spec.numeral Ethabi.Spec.hexDigitAny Ethabi.Spec.elementText.match_1 Ethabi.Spec.failsAt.match_1 Ethabi.Spec.numeral._sparseCasesOn_1 Ethabi.Spec.notHex Ethabi.Spec.denotesEach._f Ethabi.Err.parseInt Ethabi.Spec.denotes._f Ethabi.Spec.failsAt._f Ethabi.Spec.denotes.match_1 Ethabi.ParamType.address Ethabi.Spec.denotesEach Ethabi.Spec.unmatched Ethabi.Bytes Ethabi.Res.err Ethabi.Spec.cuts Ethabi.Res.ok Ethabi.beNat Ethabi.Tokenizer.lenient Ethabi.Token.address Ethabi.Token.fixedBytes Ethabi.ParamType.casesOn Ethabi.ParamType.brecOn_1 Ethabi.Spec.outside Ethabi.ParamType Ethabi.Spec.partOf Ethabi.Spec.quoted Ethabi.Spec.spans._f Ethabi.Tokenizer Ethabi.Token Ethabi.Spec.outside.match_1 Ethabi.ParamType.brecOn.go Ethabi.Spec.bracketed Ethabi.Token.uint Ethabi.Spec.numeral.match_1 Ethabi.ParamType.bytes Ethabi.Err Ethabi.Spec.spans.match_1 Ethabi.Str Ethabi.Spec.denotes Ethabi.Spec.isFullHex Ethabi.Tokenizer.strict Ethabi.Spec.partsThen Ethabi.ParamType.brecOn_1.go Ethabi.Spec.denotesEach.match_1 Ethabi.Token.bool Ethabi.Token.fixedArray Ethabi.Spec.hexDigitAny.match_1 Ethabi.Spec.isCut Ethabi.Err.serdeJson
c77_determines_operation Ethabi.Function Ethabi.Spec.DenotesEach Ethabi.stripPlus Ethabi.Operation.fallback Ethabi.Err.hex Ethabi.Param.name Ethabi.Json.obj Ethabi.Event Ethabi.Json.str Ethabi.Res.rec Ethabi.Spec.DenotesMember Ethabi.stripPlus.match_1 Ethabi.arrayNum Ethabi.ParamType.uint Ethabi.startsWith Ethabi.Spec.DenotesOperation.eventArray Ethabi.Spec.AroundTuple Ethabi.StateMutability.rec Ethabi.Mode Ethabi.Spec.AroundTuple.tuple Ethabi.Param.kind Ethabi.splitAtByte._f Ethabi.read Ethabi.EventParam.name Ethabi.Json.arr Ethabi.StateMutability.nonPayable Ethabi.Spec.DenotesType.tuple Ethabi.Spec.KnownKeys Ethabi.indexVec Ethabi.Param.mk Ethabi.ReadSt Ethabi.readLoop.match_3 Ethabi.TupleParam.mk Ethabi.lit Ethabi.Spec.DenotesEventParam Ethabi.Spec.DenotesTail.both Ethabi.Json.bool Ethabi.Spec.mutabilityWord.match_1 Ethabi.indexVec.match_1 Ethabi.TupleParam.name Ethabi.Err.other Ethabi.Operation.event Ethabi.Err.invalidData Ethabi.Function.constant Ethabi.Spec.entriesOf Ethabi.Spec.DenotesEach.nil Ethabi.Spec.WithMembers.tuple Ethabi.readComma Ethabi.readElementary Ethabi.utf8Char Ethabi.ReadSt.nested Ethabi.Mode.buffered Ethabi.Json.num Ethabi.Spec.DefaultBool Ethabi.Err.invalidName Ethabi.ParamType.fixedArray Ethabi.readFuel Ethabi.Operation.function Ethabi.Res.bind Ethabi.Spec.DenotesMembers Ethabi.Param.internalType Ethabi.Param Ethabi.Res Ethabi.Spec.DenotesOperation.functionArray Ethabi.Operation Ethabi.Spec.WordJson Ethabi.Res.panic Ethabi.strSlice Ethabi.ReadSt.lastItem Ethabi.ParamType.fixedBytes Ethabi.ParamType.int Ethabi.StateMutability.pure Ethabi.Event.anonymous Ethabi.ParamType.tuple Ethabi.Spec.OptionalString.match_1 Ethabi.readClose Ethabi.strSlice.match_1 Ethabi.Spec.WithMembers Ethabi.Operation.receive Ethabi.splitAtByte Ethabi.Spec.DenotesParam Ethabi.Spec.WithMembers.fixedArray Ethabi.Spec.WordJson.object Ethabi.ParamType.bool Ethabi.Err.utf8 Ethabi.ParamType.array Ethabi.Spec.DenotesMembers.nil Ethabi.Spec.mutabilityWord Ethabi.Function.outputs Ethabi.ParamType.string Ethabi.digitsVal Ethabi.TupleParam Ethabi.StateMutability Ethabi.Spec.DenotesOperation.event Ethabi.readStep Ethabi.ReadSt.topOpen Ethabi.Spec.DenotesOperation.receive Ethabi.byteLen Ethabi.Spec.DenotesOperation.receiveArray Ethabi.Event.mk Ethabi.Err.parseInt Ethabi.Spec.DenotesOperation.constructor Ethabi.Spec.DenotesTail Ethabi.Function.mk Ethabi.Res.casesOn Ethabi.Function.stateMutability Ethabi.Res.bind.match_1 Ethabi.Mode.direct Ethabi.ParamType.address Ethabi.EventParam.indexed Ethabi.Bytes Ethabi.splitAtByte.match_1 Ethabi.Spec.AroundTuple.array Ethabi.Res.err Ethabi.Function.inputs Ethabi.Spec.DenotesName Ethabi.Res.ok Ethabi.TupleParam.internalType Ethabi.Constructor.mk Ethabi.Spec.DenotesType Ethabi.Spec.DenotesTail.none Ethabi.Spec.DenotesOperation Ethabi.byteLen.match_1 Ethabi.EventParam Ethabi.Json.null Ethabi.Function.name Ethabi.Spec.DenotesOperation.function Ethabi.Spec.Once Ethabi.StateMutability.casesOn Ethabi.Res.instMonad Ethabi.Spec.DenotesOperation.constructorArray Ethabi.Spec.DenotesType.plain Ethabi.StateMutability.payable Ethabi.Spec.Absent Ethabi.Spec.DenotesTail.constant Ethabi.ReadSt.subtypes Ethabi.readFuel._f Ethabi.Spec.DenotesEach.cons Ethabi.readLoop.match_1 Ethabi.ParamType Ethabi.Constructor Ethabi.Spec.WordJson.string Ethabi.indexSub Ethabi.isDigit Ethabi.parseUsize Ethabi.TupleParam.kind Ethabi.readLoop Ethabi.ParamType.bytes Ethabi.Err Ethabi.readLoop._f Ethabi.Str Ethabi.EventParam.kind Ethabi.Operation.constructor Ethabi.Spec.DenotesMutability Ethabi.trailing._f Ethabi.Spec.AroundTuple.fixedArray Ethabi.ReadSt.subtuples Ethabi.Event.inputs Ethabi.Spec.WithMembers.array Ethabi.ReadSt.mk Ethabi.StateMutability.view Ethabi.readFuel.match_1 Ethabi.stripPlus._sparseCasesOn_1 Ethabi.Json Ethabi.Spec.DenotesOperation.fallback Ethabi.readOpen Ethabi.EventParam.mk Ethabi.Spec.DenotesMembers.cons Ethabi.byteLen._f Ethabi.Spec.DenotesOperation.fallbackArray Ethabi.Spec.OptionalString Ethabi.Event.name Ethabi.Spec.CutAtParen Ethabi.trailing Ethabi.trailing.match_1 Ethabi.Spec.DenotesMember.mk Ethabi.Spec.DenotesType.unused Ethabi.Err.serdeJson
c90_determines_param Ethabi.stripPlus Ethabi.Err.hex Ethabi.Json.obj Ethabi.Spec.ParamFine Ethabi.Json.str Ethabi.Res.rec Ethabi.Spec.DenotesMember Ethabi.stripPlus.match_1 Ethabi.arrayNum Ethabi.ParamType.uint Ethabi.startsWith Ethabi.Spec.AroundTuple Ethabi.Mode Ethabi.Spec.AroundTuple.tuple Ethabi.splitAtByte._f Ethabi.read Ethabi.Json.arr Ethabi.Spec.DenotesType.tuple Ethabi.Spec.KnownKeys Ethabi.indexVec Ethabi.Param.mk Ethabi.ReadSt Ethabi.readLoop.match_3 Ethabi.TupleParam.mk Ethabi.lit Ethabi.Json.bool Ethabi.indexVec.match_1 Ethabi.TupleParam.name Ethabi.Err.other Ethabi.Spec.CrashesParam.components Ethabi.Err.invalidData Ethabi.Spec.entriesOf Ethabi.Spec.WithMembers.tuple Ethabi.readComma Ethabi.readElementary Ethabi.utf8Char Ethabi.ReadSt.nested Ethabi.Mode.buffered Ethabi.Json.num Ethabi.Err.invalidName Ethabi.ParamType.fixedArray Ethabi.readFuel Ethabi.Res.bind Ethabi.Spec.DenotesMembers Ethabi.Param Ethabi.Res Ethabi.Res.panic Ethabi.strSlice Ethabi.ReadSt.lastItem Ethabi.ParamType.fixedBytes Ethabi.ParamType.int Ethabi.ParamType.tuple Ethabi.Spec.OptionalString.match_1 Ethabi.readClose Ethabi.strSlice.match_1 Ethabi.Spec.WithMembers Ethabi.splitAtByte Ethabi.Spec.WithMembers.fixedArray Ethabi.ParamType.bool Ethabi.Err.utf8 Ethabi.ParamType.array Ethabi.Spec.DenotesMembers.nil Ethabi.ParamType.string Ethabi.digitsVal Ethabi.TupleParam Ethabi.Spec.CrashesParam.type Ethabi.readStep Ethabi.ReadSt.topOpen Ethabi.byteLen Ethabi.Err.parseInt Ethabi.Res.casesOn Ethabi.Res.bind.match_1 Ethabi.Mode.direct Ethabi.ParamType.address Ethabi.Bytes Ethabi.splitAtByte.match_1 Ethabi.Spec.AroundTuple.array Ethabi.Res.err Ethabi.Res.ok Ethabi.TupleParam.internalType Ethabi.Spec.DenotesType Ethabi.byteLen.match_1 Ethabi.Json.null Ethabi.Spec.ComponentsFine Ethabi.Spec.Once Ethabi.Res.instMonad Ethabi.Spec.DenotesType.plain Ethabi.Spec.Absent Ethabi.ReadSt.subtypes Ethabi.readFuel._f Ethabi.Spec.TypeFine Ethabi.readLoop.match_1 Ethabi.ParamType Ethabi.indexSub Ethabi.isDigit Ethabi.parseUsize Ethabi.TupleParam.kind Ethabi.readLoop Ethabi.ParamType.bytes Ethabi.Err Ethabi.readLoop._f Ethabi.Str Ethabi.trailing._f Ethabi.Spec.AroundTuple.fixedArray Ethabi.ReadSt.subtuples Ethabi.Spec.WithMembers.array Ethabi.ReadSt.mk Ethabi.readFuel.match_1 Ethabi.stripPlus._sparseCasesOn_1 Ethabi.Json Ethabi.readOpen Ethabi.Spec.DenotesMembers.cons Ethabi.Spec.CrashesParam Ethabi.byteLen._f Ethabi.Spec.OptionalString Ethabi.trailing Ethabi.trailing.match_1 Ethabi.Spec.DenotesMember.mk Ethabi.Spec.DenotesType.unused Ethabi.Err.serdeJson
c84_determines_use Ethabi.Function Ethabi.Contract.allFunctions Ethabi.deString._sparseCasesOn_1 Ethabi.OpSt.mk Ethabi.Json.below_1 Ethabi.generateConstructors Ethabi.stripPlus Ethabi.mutabilityVariant Ethabi.deVec._f Ethabi.topicNamesFrom Ethabi.Operation.fallback Ethabi.Err.hex Ethabi.deParamFields Ethabi.Param.name Ethabi.Json.obj Ethabi.deComponents Ethabi.Event Ethabi.Json.str Ethabi.Res.rec Ethabi.stripPlus.match_1 Ethabi.deComponents._sparseCasesOn_1 Ethabi.Json.rec Ethabi.arrayNum Ethabi.ParamType.uint Ethabi.pushEntry Ethabi.deOperationSeq Ethabi.startsWith Ethabi.ParamType.rec Ethabi.toSyntaxString Ethabi.deStateMutability._sparseCasesOn_4 Ethabi.toSyntaxString._f Ethabi.StateMutability.rec Ethabi.Mode Ethabi.FieldSt.internalType Ethabi.deOperationSeq._sparseCasesOn_1 Ethabi.Param.kind Ethabi.splitAtByte._f Ethabi.Tok.index Ethabi.read Ethabi.deContract Ethabi.deArr.match_1 Ethabi.deTupleParams.match_1 Ethabi.ParamType.rec_1 Ethabi.Spec.functionOk Ethabi.EventParam.name Ethabi.Naming.snake Ethabi.World Ethabi.Json.arr Ethabi.deEventSeq Ethabi.StateMutability.nonPayable Ethabi.toEthabiParamVec Ethabi.Tok.doc Ethabi.indexVec Ethabi.Param.mk Ethabi.ReadSt Ethabi.Spec.tupleFree.match_1 Ethabi.Json.below Ethabi.readLoop.match_3 Ethabi.TupleParam.mk Ethabi.lit Ethabi.deOperations.match_1 Ethabi.mutabilityCode Ethabi.Contract.add Ethabi.Json.bool Ethabi.inputNamesFrom Ethabi.Mode.rec Ethabi.eventNamesFrom._f Ethabi.deArr._sparseCasesOn_1 Ethabi.Spec.inputIdent Ethabi.Contract.receive Ethabi.splitTag.match_3 Ethabi.functionExpr Ethabi.Json.ctorIdx Ethabi.indexVec.match_1 Ethabi.Contract.add.match_1 Ethabi.FieldSt Ethabi.callBody Ethabi.Err.other Ethabi.Operation.event Ethabi.Err.invalidData Ethabi.deParamFields._f Ethabi.Spec.tupleFree._sparseCasesOn_1 Ethabi.Function.constant Ethabi.readComma Ethabi.readElementary Ethabi.outputKinds.match_1 Ethabi.utf8Char Ethabi.Spec.PlacedAt Ethabi.topicNamesFrom._f Ethabi.ReadSt.nested Ethabi.Mode.buffered Ethabi.deName Ethabi.Json.num Ethabi.Err.invalidName Ethabi.ParamType.fixedArray Ethabi.fromTokenCode._f Ethabi.readFuel Ethabi.mutabilityCode.match_1 Ethabi.deOperations Ethabi.required Ethabi.functionText Ethabi.Operation.function Ethabi.Res.bind Ethabi.eventText Ethabi.Naming.valid Ethabi.Param Ethabi.Res Ethabi.boolTok Ethabi.setTupleComponents.match_1 Ethabi.mapRes Ethabi.paramCode Ethabi.Operation Ethabi.deVec.match_1 Ethabi.deFunctionSeq.match_3 Ethabi.generateConstructors.match_1 Ethabi.OpSt.constant Ethabi.FieldSt.kind Ethabi.Res.panic Ethabi.strSlice Ethabi.ReadSt.lastItem Ethabi.encodeInputBody Ethabi.ParamType.fixedBytes Ethabi.ParamType.int Ethabi.generateContract Ethabi.StateMutability.pure Ethabi.synIndex Ethabi.Event.anonymous Ethabi.ParamType.below Ethabi.OpSt Ethabi.ParamType.tuple Ethabi.outputKinds._sparseCasesOn_1 Ethabi.filterDeclarations Ethabi.endOfSeq Ethabi.readClose Ethabi.eventParamCode Ethabi.eventNamesFrom.match_1 Ethabi.filterInitFrom.match_1 Ethabi.pushEntry._f Ethabi.strSlice.match_1 Ethabi.Operation.receive Ethabi.splitAtByte Ethabi.deString Ethabi.toTokenCode Ethabi.deStateMutability.match_1 Ethabi.deTupleFields.match_1 Ethabi.ParamType.bool Ethabi.Spec.tupleFree._f Ethabi.innerTuple._sparseCasesOn_1 Ethabi.Err.utf8 Ethabi.ParamType.array Ethabi.Json.rec_2 Ethabi.Spec.PlacedAt.empty Ethabi.ParamType.below_1 Ethabi.FieldSt.name Ethabi.ParamType.brecOn Ethabi.extendInner._f Ethabi.OpSt.stateMutability Ethabi.Function.outputs Ethabi.Naming.camel Ethabi.eventNamesFrom Ethabi.ParamType.string Ethabi.deEventOpFields._f Ethabi.digitsVal Ethabi.TupleParam Ethabi.StateMutability Ethabi.outputImplementation.match_1 Ethabi.deComponents.match_1 Ethabi.Contract.fallback Ethabi.deVec Ethabi.commas Ethabi.toSyntaxString.match_1 Ethabi.Naming.ident Ethabi.deKind Ethabi.deString.match_1 Ethabi.inputNamesFrom.match_1 Ethabi.readStep Ethabi.ReadSt.topOpen Ethabi.deEvent Ethabi.Tok Ethabi.deBool Ethabi.Operation.rec Ethabi.deEventSeq.match_1 Ethabi.OpSt.anonymous Ethabi.kindsOf Ethabi.deTupleFields._f Ethabi.required.match_1 Ethabi.byteLen Ethabi.OpSt.eventInputs Ethabi.Event.mk Ethabi.deBool.match_1 Ethabi.fromTokenCode Ethabi.vecCode Ethabi.Spec.indexable._sparseCasesOn_1 Ethabi.Err.parseInt Ethabi.fromTemplateParam Ethabi.FieldSt.components Ethabi.parseLogBody Ethabi.Spec.inputsOk Ethabi.declarationsFrom._f Ethabi.natText Ethabi.Function.mk Ethabi.deConstructorSeq Ethabi.Res.casesOn Ethabi.FieldSt.indexed Ethabi.sanitizeName Ethabi.deTupleParam._f Ethabi.Function.stateMutability Ethabi.Spec.nameOk Ethabi.Res.bind.match_1 Ethabi.Json.brecOn Ethabi.Contract.events Ethabi.templateNames Ethabi.Mode.direct Ethabi.deStateMutability Ethabi.outputKinds Ethabi.ParamType.address Ethabi.deFunctionFields.match_1 Ethabi.EventParam.indexed Ethabi.rustType._f Ethabi.Bytes Ethabi.pushEntry.match_1 Ethabi.finishTupleParam Ethabi.outputImplementation Ethabi.innerTuple._f Ethabi.extendInner Ethabi.Spec.tupleFree Ethabi.innerTuple Ethabi.Spec.contractOk Ethabi.Spec.PlacedAt.below Ethabi.rustType Ethabi.toTokenCode._f Ethabi.Mode.casesOn Ethabi.filterInitFrom._f Ethabi.deConstructor Ethabi.splitAtByte.match_1 Ethabi.nextElement Ethabi.Res.err Ethabi.Function.inputs Ethabi.deStateMutability._sparseCasesOn_3 Ethabi.tokenizeCode._sparseCasesOn_1 Ethabi.Operation.casesOn Ethabi.deTupleParam._sparseCasesOn_1 Ethabi.deConstructorFields Ethabi.Spec.eventOk Ethabi.Res.ok Ethabi.Constructor.mk Ethabi.Tok.str Ethabi.deOperation._sparseCasesOn_5 Ethabi.deTupleFields.match_3 Ethabi.templateParamType Ethabi.deComponents._f Ethabi.byteLen.match_1 Ethabi.deFunction Ethabi.EventParam Ethabi.Spec.contractOk.match_1 Ethabi.Spec.PlacedAt.inside Ethabi.numbered Ethabi.deStateMutability._sparseCasesOn_1 Ethabi.Json.null Ethabi.deParam Ethabi.Function.name Ethabi.deKind.match_1 Ethabi.World.manifestDir Ethabi.deFunctionFields Ethabi.Constructor.inputs Ethabi.inputNamesFrom._f Ethabi.Contract.functions Ethabi.StateMutability.casesOn Ethabi.Spec.indexable Ethabi.Naming.mk Ethabi.Res.instMonad Ethabi.deEventFields Ethabi.tokenizeCode._f Ethabi.innerTuple.match_1 Ethabi.World.mk Ethabi.generateConstructor Ethabi.definitions Ethabi.StateMutability.payable Ethabi.generateLog Ethabi.ReadSt.subtypes Ethabi.deEventFields._f Ethabi.ParamType.casesOn Ethabi.Code Ethabi.deFunctionSeq.match_7 Ethabi.readFuel._f Ethabi.deConstructorFields._f Ethabi.filterBody Ethabi.inputName Ethabi.fromTemplateParam.match_1 Ethabi.readLoop.match_1 Ethabi.Spec.PlacedAt.absolute Ethabi.rustVariable Ethabi.Contract.constructor Ethabi.generateFunction Ethabi.eventExpr Ethabi.ParamType Ethabi.splitTag._f Ethabi.ParamType.ctorIdx Ethabi.Constructor Ethabi.indexSub Ethabi.declarationsFrom.match_1 Ethabi.declarationsFrom Ethabi.Json.below_3 Ethabi.Spec.indexable._f Ethabi.isDigit Ethabi.rustType.match_1 Ethabi.deStateMutability._sparseCasesOn_2 Ethabi.ParamType.brecOn.go Ethabi.deOperations._f Ethabi.parseUsize Ethabi.TupleParam.kind Ethabi.readLoop Ethabi.deOperation Ethabi.ParamType.bytes Ethabi.Err Ethabi.Tok.word Ethabi.Contract.mk Ethabi.readLoop._f Ethabi.splitTag Ethabi.mapRes.match_1 Ethabi.Str Ethabi.fromTemplateParam._sparseCasesOn_1 Ethabi.EventParam.kind Ethabi.deOperation.match_5 Ethabi.deFunctionFields._f Ethabi.Naming Ethabi.Json.casesOn Ethabi.setTupleComponents Ethabi.Json.rec_3 Ethabi.commas.match_1 Ethabi.generateEvent Ethabi.Operation.constructor Ethabi.tokenizeCode.match_1 Ethabi.trailing._f Ethabi.FieldSt.mk Ethabi.Json.brecOn.go Ethabi.Tok.num Ethabi.ReadSt.subtuples Ethabi.logFields Ethabi.Event.inputs Ethabi.deFunctionSeq Ethabi.filterInitFrom Ethabi.ReadSt.mk Ethabi.Contract Ethabi.Json.rec_1 Ethabi.deEventOpFields Ethabi.deFunctionSeq.match_5 Ethabi.StateMutability.view Ethabi.OpSt.name Ethabi.Json.below_2 Ethabi.readFuel.match_1 Ethabi.stripPlus._sparseCasesOn_1 Ethabi.Json Ethabi.deOperation.match_1 Ethabi.readOpen Ethabi.EventParam.mk Ethabi.deOperationSeq.match_1 Ethabi.Contract.allEvents Ethabi.deEventParam Ethabi.World.file Ethabi.commas._f Ethabi.tokenizeCode Ethabi.splitTag.match_1 Ethabi.logInit Ethabi.mapRes._f Ethabi.OpSt.inputs Ethabi.byteLen._f Ethabi.eventName Ethabi.deBool._sparseCasesOn_1 Ethabi.OpSt.outputs Ethabi.deTupleParam.match_1 Ethabi.constructorBody Ethabi.Spec.indexable.match_1 Ethabi.deFunctionSeq.match_1 Ethabi.Event.name Ethabi.txt Ethabi.deArr Ethabi.deOperation.match_3 Ethabi.trailing Ethabi.trailing.match_1 Ethabi.Err.serdeJson Ethabi.deTupleParams._f
c105_determines_derive Ethabi.Function Ethabi.Contract.allFunctions Ethabi.deString._sparseCasesOn_1 Ethabi.NestedMeta.lit Ethabi.OpSt.mk Ethabi.Json.below_1 Ethabi.generateConstructors Ethabi.stripPlus Ethabi.mutabilityVariant Ethabi.deVec._f Ethabi.topicNamesFrom Ethabi.Operation.fallback Ethabi.NestedMeta Ethabi.getOptions Ethabi.Err.hex Ethabi.deParamFields Ethabi.Param.name Ethabi.JsonGrammar.Escaped.pair Ethabi.Json.obj Ethabi.deComponents Ethabi.Event Ethabi.Json.str Ethabi.Res.rec Ethabi.stripPlus.match_1 Ethabi.JsonGrammar.Digits Ethabi.deComponents._sparseCasesOn_1 Ethabi.Json.rec Ethabi.strValueOfMetaItem._sparseCasesOn_1 Ethabi.arrayNum Ethabi.ParamType.uint Ethabi.pushEntry Ethabi.deOperationSeq Ethabi.startsWith Ethabi.ParamType.rec Ethabi.toSyntaxString Ethabi.deStateMutability._sparseCasesOn_4 Ethabi.implEthabiDerive Ethabi.toSyntaxString._f Ethabi.StateMutability.rec Ethabi.Mode Ethabi.FieldSt.internalType Ethabi.JsonGrammar.Escaped.code Ethabi.getOption Ethabi.deOperationSeq._sparseCasesOn_1 Ethabi.Param.kind Ethabi.splitAtByte._f Ethabi.Tok.index Ethabi.read Ethabi.deContract Ethabi.deArr.match_1 Ethabi.Meta.casesOn Ethabi.strValueOfMetaItem._sparseCasesOn_2 Ethabi.deTupleParams.match_1 Ethabi.ParamType.rec_1 Ethabi.EventParam.name Ethabi.Naming.snake Ethabi.World Ethabi.Json.arr Ethabi.NestedMeta.rec Ethabi.deEventSeq Ethabi.StateMutability.nonPayable Ethabi.toEthabiParamVec Ethabi.Tok.doc Ethabi.indexVec Ethabi.Param.mk Ethabi.ReadSt Ethabi.Json.below Ethabi.readLoop.match_3 Ethabi.TupleParam.mk Ethabi.lit Ethabi.JsonGrammar.Entries Ethabi.deOperations.match_1 Ethabi.mutabilityCode Ethabi.Contract.add Ethabi.Json.bool Ethabi.inputNamesFrom Ethabi.Mode.rec Ethabi.eventNamesFrom._f Ethabi.deArr._sparseCasesOn_1 Ethabi.Contract.receive Ethabi.splitTag.match_3 Ethabi.functionExpr Ethabi.Json.ctorIdx Ethabi.indexVec.match_1 Ethabi.JsonGrammar.HexDigit Ethabi.Contract.add.match_1 Ethabi.FieldSt Ethabi.callBody Ethabi.Err.other Ethabi.Operation.event Ethabi.Err.invalidData Ethabi.deParamFields._f Ethabi.Meta.name Ethabi.JsonGrammar.Hex4 Ethabi.Function.constant Ethabi.readComma Ethabi.readElementary Ethabi.outputKinds.match_1 Ethabi.JsonGrammar.Value.array Ethabi.utf8Char Ethabi.topicNamesFrom._f Ethabi.ReadSt.nested Ethabi.Mode.buffered Ethabi.deName Ethabi.Json.num Ethabi.MetaLit.ctorIdx Ethabi.getOptions._sparseCasesOn_1 Ethabi.Err.invalidName Ethabi.Res.ctorIdx Ethabi.ParamType.fixedArray Ethabi.Attribute.mk Ethabi.fromTokenCode._f Ethabi.readFuel Ethabi.mutabilityCode.match_1 Ethabi.deOperations Ethabi.required Ethabi.functionText Ethabi.JsonGrammar.Value.false Ethabi.Operation.function Ethabi.Res.bind Ethabi.getOption.match_1 Ethabi.eventText Ethabi.Naming.valid Ethabi.Param Ethabi.Res Ethabi.boolTok Ethabi.setTupleComponents.match_1 Ethabi.mapRes Ethabi.paramCode Ethabi.Operation Ethabi.deVec.match_1 Ethabi.deFunctionSeq.match_3 Ethabi.JsonGrammar.Exponent Ethabi.generateConstructors.match_1 Ethabi.OpSt.constant Ethabi.FieldSt.kind Ethabi.Res.panic Ethabi.MetaLit.other Ethabi.strSlice Ethabi.ReadSt.lastItem Ethabi.encodeInputBody Ethabi.ParamType.fixedBytes Ethabi.ParamType.int Ethabi.generateContract Ethabi.JsonGrammar.Escaped.plain Ethabi.StateMutability.pure Ethabi.synIndex Ethabi.Event.anonymous Ethabi.ParamType.below Ethabi.OpSt Ethabi.ethabiDerive Ethabi.ParamType.tuple Ethabi.outputKinds._sparseCasesOn_1 Ethabi.filterDeclarations Ethabi.endOfSeq Ethabi.JsonGrammar.Value.null Ethabi.readClose Ethabi.Meta.rec Ethabi.eventParamCode Ethabi.eventNamesFrom.match_1 Ethabi.filterInitFrom.match_1 Ethabi.JsonGrammar.Number.minus Ethabi.pushEntry._f Ethabi.strSlice.match_1 Ethabi.JsonGrammar.Value.true Ethabi.JsonGrammar.Chars Ethabi.Operation.receive Ethabi.splitAtByte Ethabi.deString Ethabi.toTokenCode Ethabi.NestedMeta.item Ethabi.deStateMutability.match_1 Ethabi.deTupleFields.match_1 Ethabi.ParamType.bool Ethabi.innerTuple._sparseCasesOn_1 Ethabi.Err.utf8 Ethabi.ParamType.array Ethabi.Json.rec_2 Ethabi.ParamType.below_1 Ethabi.JsonGrammar.Number.plus Ethabi.NestedMeta.casesOn Ethabi.FieldSt.name Ethabi.ethabiDerive.match_1 Ethabi.JsonGrammar.RendersBytes Ethabi.ParamType.brecOn Ethabi.extendInner._f Ethabi.normalizePath Ethabi.OpSt.stateMutability Ethabi.Function.outputs Ethabi.Naming.camel Ethabi.Attribute.parsed Ethabi.eventNamesFrom Ethabi.ParamType.string Ethabi.deEventOpFields._f Ethabi.MetaPath Ethabi.digitsVal Ethabi.TupleParam Ethabi.StateMutability Ethabi.outputImplementation.match_1 Ethabi.Meta.ctorIdx Ethabi.JsonGrammar.Items Ethabi.deComponents.match_1 Ethabi.Contract.fallback Ethabi.JsonGrammar.Value.noItems Ethabi.deVec Ethabi.commas Ethabi.toSyntaxString.match_1 Ethabi.Naming.ident Ethabi.deKind Ethabi.deString.match_1 Ethabi.inputNamesFrom.match_1 Ethabi.readStep Ethabi.JsonGrammar.Escaped.short Ethabi.ReadSt.topOpen Ethabi.deEvent Ethabi.Tok Ethabi.deBool Ethabi.Operation.rec Ethabi.Attribute Ethabi.deEventSeq.match_1 Ethabi.OpSt.anonymous Ethabi.kindsOf Ethabi.deTupleFields._f Ethabi.required.match_1 Ethabi.byteLen Ethabi.JsonGrammar.Hex4.mk Ethabi.OpSt.eventInputs Ethabi.Event.mk Ethabi.deBool.match_1 Ethabi.fromTokenCode Ethabi.vecCode Ethabi.Err.parseInt Ethabi.fromTemplateParam Ethabi.FieldSt.components Ethabi.parseLogBody Ethabi.declarationsFrom._f Ethabi.natText Ethabi.NestedMeta.toMeta Ethabi.Function.mk Ethabi.deConstructorSeq Ethabi.Res.casesOn Ethabi.FieldSt.indexed Ethabi.sanitizeName Ethabi.deTupleParam._f Ethabi.Function.stateMutability Ethabi.pathPush Ethabi.JsonGrammar.Value.number Ethabi.Res.bind.match_1 Ethabi.Json.brecOn Ethabi.Contract.events Ethabi.templateNames Ethabi.Mode.direct Ethabi.deStateMutability Ethabi.outputKinds Ethabi.ParamType.address Ethabi.strValueOfMetaItem Ethabi.Meta.name.match_1 Ethabi.MetaLit Ethabi.JsonGrammar.Items.more Ethabi.Meta.path Ethabi.deFunctionFields.match_1 Ethabi.EventParam.indexed Ethabi.rustType._f Ethabi.JsonGrammar.Whole Ethabi.Bytes Ethabi.pushEntry.match_1 Ethabi.finishTupleParam Ethabi.outputImplementation Ethabi.innerTuple._f Ethabi.extendInner Ethabi.innerTuple Ethabi.rustType Ethabi.toTokenCode._f Ethabi.Mode.casesOn Ethabi.filterInitFrom._f Ethabi.getOptions.match_1 Ethabi.deConstructor Ethabi.MetaLit.rec Ethabi.MetaPath.isIdent Ethabi.splitAtByte.match_1 Ethabi.nextElement Ethabi.Res.err Ethabi.Function.inputs Ethabi.deStateMutability._sparseCasesOn_3 Ethabi.tokenizeCode._sparseCasesOn_1 Ethabi.Operation.casesOn Ethabi.deTupleParam._sparseCasesOn_1 Ethabi.JsonGrammar.Blank Ethabi.JsonGrammar.Chars.nil Ethabi.deConstructorFields Ethabi.Res.ok Ethabi.normalizePath.match_1 Ethabi.Constructor.mk Ethabi.Tok.str Ethabi.deOperation._sparseCasesOn_5 Ethabi.deTupleFields.match_3 Ethabi.templateParamType Ethabi.deComponents._f Ethabi.byteLen.match_1 Ethabi.deFunction Ethabi.EventParam Ethabi.numbered Ethabi.deStateMutability._sparseCasesOn_1 Ethabi.MetaPath.mk Ethabi.Json.null Ethabi.deParam Ethabi.strValueOfMetaItem.match_1 Ethabi.Function.name Ethabi.deKind.match_1 Ethabi.JsonGrammar.Value.object Ethabi.World.manifestDir Ethabi.deFunctionFields Ethabi.Constructor.inputs Ethabi.inputNamesFrom._f Ethabi.Contract.functions Ethabi.JsonGrammar.Escaped Ethabi.StateMutability.casesOn Ethabi.Naming.mk Ethabi.Res.instMonad Ethabi.Meta Ethabi.deEventFields Ethabi.tokenizeCode._f Ethabi.JsonGrammar.Value Ethabi.innerTuple.match_1 Ethabi.JsonGrammar.Encodes Ethabi.World.mk Ethabi.getOptions._sparseCasesOn_2 Ethabi.generateConstructor Ethabi.definitions Ethabi.StateMutability.payable Ethabi.generateLog Ethabi.JsonGrammar.Value.noEntries Ethabi.ReadSt.subtypes Ethabi.deEventFields._f Ethabi.ParamType.casesOn Ethabi.Code Ethabi.deFunctionSeq.match_7 Ethabi.readFuel._f Ethabi.JsonGrammar.Number Ethabi.deConstructorFields._f Ethabi.filterBody Ethabi.NestedMeta.toMeta.match_1 Ethabi.loadFile Ethabi.inputName Ethabi.fromTemplateParam.match_1 Ethabi.readLoop.match_1 Ethabi.rustVariable Ethabi.Contract.constructor Ethabi.generateFunction Ethabi.Meta.nameValue Ethabi.eventExpr Ethabi.ParamType Ethabi.splitTag._f Ethabi.JsonGrammar.Entries.one Ethabi.ParamType.ctorIdx Ethabi.Constructor Ethabi.JsonGrammar.Holds Ethabi.indexSub Ethabi.declarationsFrom.match_1 Ethabi.declarationsFrom Ethabi.Json.below_3 Ethabi.isDigit Ethabi.rustType.match_1 Ethabi.deStateMutability._sparseCasesOn_2 Ethabi.ParamType.brecOn.go Ethabi.deOperations._f Ethabi.parseUsize Ethabi.JsonGrammar.Value.string Ethabi.TupleParam.kind Ethabi.readLoop Ethabi.JsonGrammar.Fraction Ethabi.deOperation Ethabi.ParamType.bytes Ethabi.JsonGrammar.Items.one Ethabi.Err Ethabi.Tok.word Ethabi.JsonGrammar.shorts Ethabi.Contract.mk Ethabi.readLoop._f Ethabi.splitTag Ethabi.mapRes.match_1 Ethabi.Str Ethabi.fromTemplateParam._sparseCasesOn_1 Ethabi.EventParam.kind Ethabi.loadFile.match_1 Ethabi.MetaPath.leading Ethabi.deOperation.match_5 Ethabi.deFunctionFields._f Ethabi.Naming Ethabi.Json.casesOn Ethabi.JsonGrammar.Text Ethabi.setTupleComponents Ethabi.Json.rec_3 Ethabi.commas.match_1 Ethabi.generateEvent Ethabi.Operation.constructor Ethabi.MetaPath.segments Ethabi.tokenizeCode.match_1 Ethabi.trailing._f Ethabi.FieldSt.mk Ethabi.Json.brecOn.go Ethabi.Tok.num Ethabi.ReadSt.subtuples Ethabi.logFields Ethabi.Event.inputs Ethabi.deFunctionSeq Ethabi.filterInitFrom Ethabi.ReadSt.mk Ethabi.Contract Ethabi.Meta.list Ethabi.JsonGrammar.Entries.more Ethabi.Json.rec_1 Ethabi.deEventOpFields Ethabi.deFunctionSeq.match_5 Ethabi.StateMutability.view Ethabi.OpSt.name Ethabi.Json.below_2 Ethabi.readFuel.match_1 Ethabi.stripPlus._sparseCasesOn_1 Ethabi.Json Ethabi.deOperation.match_1 Ethabi.readOpen Ethabi.EventParam.mk Ethabi.deOperationSeq.match_1 Ethabi.Contract.allEvents Ethabi.MetaLit.casesOn Ethabi.deEventParam Ethabi.ethabiDerive._sparseCasesOn_1 Ethabi.World.file Ethabi.commas._f Ethabi.tokenizeCode Ethabi.JsonGrammar.Chars.cons Ethabi.splitTag.match_1 Ethabi.logInit Ethabi.mapRes._f Ethabi.OpSt.inputs Ethabi.byteLen._f Ethabi.eventName Ethabi.deBool._sparseCasesOn_1 Ethabi.OpSt.outputs Ethabi.deTupleParam.match_1 Ethabi.constructorBody Ethabi.MetaLit.str Ethabi.deFunctionSeq.match_1 Ethabi.Event.name Ethabi.txt Ethabi.deArr Ethabi.deOperation.match_3 Ethabi.trailing Ethabi.trailing.match_1 Ethabi.Err.serdeJson Ethabi.deTupleParams._f
c118_determines_decode_params Ethabi.asUsize Ethabi.ParamType.isDynamic.match_1 Ethabi.stripPlus Ethabi.Profile Ethabi.Err.hex Ethabi.Props.ReadAs Ethabi.Json.obj Ethabi.sliceFrom Ethabi.Json.str Ethabi.Spec.hexadecimal Ethabi.Res.rec Ethabi.HexReason.character Ethabi.stripPlus.match_1 Ethabi.ParamType.isDynamic Ethabi.decodeParam.match_1 Ethabi.Spec.hexFails Ethabi.arrayNum Ethabi.ParamType.uint Ethabi.startsWith Ethabi.ParamType.rec Ethabi.Spec.hexText Ethabi.instReprProfile.repr.match_1 Ethabi.decodeParams._f Ethabi.second4 Ethabi.splitAtByte._f Ethabi.read Ethabi.Reason.notOpened Ethabi.Token.array Ethabi.ParamType.isDynamic._f Ethabi.ParamType.rec_1 Ethabi.ParamType.isEmptyBytesValidEncoding Ethabi.Token.tuple Ethabi.Json.arr Ethabi.indexVec Ethabi.ReadSt Ethabi.replacementChar Ethabi.Address Ethabi.readLoop.match_3 Ethabi.lit Ethabi.peek32 Ethabi.Reason Ethabi.Reason.unknownFunction Ethabi.Json.bool Ethabi.Reason.unknownEvent Ethabi.Spec.bytesIn Ethabi.U256 Ethabi.indexVec.match_1 Ethabi.Err.other Ethabi.Command.decodeLog Ethabi.Err.invalidData Ethabi.readComma Ethabi.Props.TypeFails Ethabi.fromUtf8Lossy._f Ethabi.readElementary Ethabi.utf8Char Ethabi.usizeAdd Ethabi.ReadSt.nested Ethabi.Json.num Ethabi.takeBytes Ethabi.Err.invalidName Ethabi.ParamType.fixedArray Ethabi.Reason.hex Ethabi.readFuel Ethabi.Spec.numeral._f Ethabi.decodeLoop.match_1 Ethabi.Res.bind Ethabi.Res Ethabi.Token.string Ethabi.machine Ethabi.Profile.casesOn Ethabi.Err.casesOn Ethabi.Res.panic Ethabi.strSlice Ethabi.ReadSt.lastItem Ethabi.ParamType.fixedBytes Ethabi.Token.int Ethabi.ParamType.int Ethabi.Profile.release Ethabi.ParamType.below Ethabi.ParamType.tuple Ethabi.copyWord Ethabi.Reason.underflow Ethabi.readClose Ethabi.Token.bytes Ethabi.strSlice.match_1 Ethabi.Reason.invalidName Ethabi.splitAtByte Ethabi.ParamType.bool Ethabi.ParamType.isDynamic._sparseCasesOn_1 Ethabi.Err.utf8 Ethabi.ParamType.array Ethabi.ParamType.below_1 Ethabi.Props.DataFails Ethabi.fromUtf8Lossy.match_3 Ethabi.ParamType.brecOn Ethabi.ParamType.string Ethabi.digitsVal Ethabi.Spec.numeral Ethabi.Reason.decLength Ethabi.Spec.hexDigitAny Ethabi.Spec.elementText.match_1 Ethabi.second3 Ethabi.readStep Ethabi.ReadSt.topOpen Ethabi.Spec.numeral._sparseCasesOn_1 Ethabi.Err.rec Ethabi.wordAddress._proof_1 Ethabi.fromUtf8Lossy Ethabi.decode Ethabi.byteLen Ethabi.fromUtf8Lossy.match_1 Ethabi.Reason.ambiguous Ethabi.decodeLoop.match_5 Ethabi.Err.ctorIdx Ethabi.Err.parseInt Ethabi.peek Ethabi.Res.casesOn Ethabi.Res.bind.match_1 Ethabi.utf8CharWidth Ethabi.decodeParams.match_1 Ethabi.ParamType.address Ethabi.Spec.isHexDigit Ethabi.Bytes Ethabi.Reason.invalidData Ethabi.Told.ok Ethabi.splitAtByte.match_1 Ethabi.Res.err Ethabi.Command.encodeFunction Ethabi.Res.ok Ethabi.byteLen.match_1 Ethabi.fromUtf8Lossy.match_5 Ethabi.U256.ofWord Ethabi.beNat Ethabi.Json.null Ethabi.Told.err Ethabi.Told.panic Ethabi.Profile.debug Ethabi.wordLow Ethabi.decodeParams Ethabi.Command.decodeParams Ethabi.HexReason Ethabi.Token.address Ethabi.Res.instMonad Ethabi.Token.fixedBytes Ethabi.asBool Ethabi.ParamType.usizeOkAll.match_1 Ethabi.decodeLoop._f Ethabi.ReadSt.subtypes Ethabi.ParamType.casesOn Ethabi.decodeLoop.match_3 Ethabi.ParamType.brecOn_1 Ethabi.readFuel._f Ethabi.Reason.ofErr Ethabi.readLoop.match_1 Ethabi.Reason.ofErr.match_1 Ethabi.Command Ethabi.Reason.ofErr._sparseCasesOn_1 Ethabi.ParamType Ethabi.decodeLoop Ethabi.Reason.overflow Ethabi.ParamType.ctorIdx Ethabi.indexSub Ethabi.Token Ethabi.isCont Ethabi.Command.decodeFunction Ethabi.Told Ethabi.isDigit Ethabi.Command.encodeParams Ethabi.ParamType.brecOn.go Ethabi.parseUsize Ethabi.readLoop Ethabi.Token.uint Ethabi.Spec.numeral.match_1 Ethabi.ParamType.bytes Ethabi.Err Ethabi.ParamType.isEmptyBytesValidEncoding.match_1 Ethabi.ParamType.anyDynamic._f Ethabi.readLoop._f Ethabi.slice Ethabi.HexReason.odd Ethabi.Str Ethabi.Reason.plainHex Ethabi.trailing._f Ethabi.ReadSt.subtuples Ethabi.Reason.decCharacter Ethabi.ReadSt.mk Ethabi.ParamType.anyDynamic Ethabi.Reason.foreign Ethabi.wordAddress Ethabi.ParamType.brecOn_1.go Ethabi.fromUtf8Lossy.match_7 Ethabi.readFuel.match_1 Ethabi.stripPlus._sparseCasesOn_1 Ethabi.Json Ethabi.Token.bool Ethabi.readOpen Ethabi.Token.fixedArray Ethabi.Word Ethabi.byteLen._f Ethabi.Spec.hexDigitAny.match_1 Ethabi.ParamType.isEmptyBytesValidEncoding._sparseCasesOn_1 Ethabi.trailing Ethabi.emptyDataMsg Ethabi.trailing.match_1 Ethabi.decodeParam._f Ethabi.Profile.rec Ethabi.Err.serdeJson
c84_determines Ethabi.Function Ethabi.Contract.allFunctions Ethabi.deString._sparseCasesOn_1 Ethabi.NestedMeta.lit Ethabi.OpSt.mk Ethabi.Json.below_1 Ethabi.generateConstructors Ethabi.stripPlus Ethabi.mutabilityVariant Ethabi.deVec._f Ethabi.topicNamesFrom Ethabi.Operation.fallback Ethabi.NestedMeta Ethabi.Err.hex Ethabi.deParamFields Ethabi.Param.name Ethabi.Json.obj Ethabi.deComponents Ethabi.Event Ethabi.Json.str Ethabi.Res.rec Ethabi.stripPlus.match_1 Ethabi.deComponents._sparseCasesOn_1 Ethabi.Json.rec Ethabi.arrayNum Ethabi.ParamType.uint Ethabi.pushEntry Ethabi.deOperationSeq Ethabi.startsWith Ethabi.ParamType.rec Ethabi.toSyntaxString Ethabi.deStateMutability._sparseCasesOn_4 Ethabi.toSyntaxString._f Ethabi.StateMutability.rec Ethabi.Mode Ethabi.FieldSt.internalType Ethabi.deOperationSeq._sparseCasesOn_1 Ethabi.Param.kind Ethabi.splitAtByte._f Ethabi.Tok.index Ethabi.read Ethabi.deContract Ethabi.deArr.match_1 Ethabi.deTupleParams.match_1 Ethabi.Spec.Items.lit Ethabi.ParamType.rec_1 Ethabi.Spec.AsksFor Ethabi.Spec.functionOk Ethabi.EventParam.name Ethabi.Naming.snake Ethabi.World Ethabi.Json.arr Ethabi.deEventSeq Ethabi.StateMutability.nonPayable Ethabi.toEthabiParamVec Ethabi.Tok.doc Ethabi.indexVec Ethabi.Param.mk Ethabi.ReadSt Ethabi.Spec.tupleFree.match_1 Ethabi.Json.below Ethabi.readLoop.match_3 Ethabi.TupleParam.mk Ethabi.lit Ethabi.deOperations.match_1 Ethabi.mutabilityCode Ethabi.Contract.add Ethabi.Json.bool Ethabi.inputNamesFrom Ethabi.Mode.rec Ethabi.eventNamesFrom._f Ethabi.deArr._sparseCasesOn_1 Ethabi.Spec.inputIdent Ethabi.Contract.receive Ethabi.splitTag.match_3 Ethabi.functionExpr Ethabi.Json.ctorIdx Ethabi.indexVec.match_1 Ethabi.Contract.add.match_1 Ethabi.FieldSt Ethabi.callBody Ethabi.Err.other Ethabi.Operation.event Ethabi.Err.invalidData Ethabi.deParamFields._f Ethabi.Spec.tupleFree._sparseCasesOn_1 Ethabi.Spec.Items.nil Ethabi.Function.constant Ethabi.readComma Ethabi.readElementary Ethabi.outputKinds.match_1 Ethabi.utf8Char Ethabi.Spec.PlacedAt Ethabi.topicNamesFrom._f Ethabi.ReadSt.nested Ethabi.Mode.buffered Ethabi.deName Ethabi.Json.num Ethabi.Err.invalidName Ethabi.ParamType.fixedArray Ethabi.Attribute.mk Ethabi.Spec.Items.item Ethabi.fromTokenCode._f Ethabi.readFuel Ethabi.mutabilityCode.match_1 Ethabi.deOperations Ethabi.Spec.Items Ethabi.required Ethabi.functionText Ethabi.Operation.function Ethabi.Res.bind Ethabi.eventText Ethabi.Naming.valid Ethabi.Param Ethabi.Res Ethabi.boolTok Ethabi.setTupleComponents.match_1 Ethabi.mapRes Ethabi.paramCode Ethabi.Operation Ethabi.deVec.match_1 Ethabi.deFunctionSeq.match_3 Ethabi.generateConstructors.match_1 Ethabi.OpSt.constant Ethabi.Spec.Parsed.bad Ethabi.FieldSt.kind Ethabi.Res.panic Ethabi.MetaLit.other Ethabi.strSlice Ethabi.ReadSt.lastItem Ethabi.encodeInputBody Ethabi.ParamType.fixedBytes Ethabi.ParamType.int Ethabi.generateContract Ethabi.StateMutability.pure Ethabi.Spec.Named.path Ethabi.synIndex Ethabi.Event.anonymous Ethabi.ParamType.below Ethabi.OpSt Ethabi.ParamType.tuple Ethabi.outputKinds._sparseCasesOn_1 Ethabi.filterDeclarations Ethabi.endOfSeq Ethabi.readClose Ethabi.eventParamCode Ethabi.eventNamesFrom.match_1 Ethabi.filterInitFrom.match_1 Ethabi.pushEntry._f Ethabi.strSlice.match_1 Ethabi.Operation.receive Ethabi.splitAtByte Ethabi.deString Ethabi.toTokenCode Ethabi.NestedMeta.item Ethabi.deStateMutability.match_1 Ethabi.deTupleFields.match_1 Ethabi.ParamType.bool Ethabi.Spec.tupleFree._f Ethabi.Spec.Named.list Ethabi.innerTuple._sparseCasesOn_1 Ethabi.Err.utf8 Ethabi.ParamType.array Ethabi.Json.rec_2 Ethabi.Spec.PlacedAt.empty Ethabi.ParamType.below_1 Ethabi.FieldSt.name Ethabi.ParamType.brecOn Ethabi.extendInner._f Ethabi.OpSt.stateMutability Ethabi.Function.outputs Ethabi.Naming.camel Ethabi.Spec.Parsed.nil Ethabi.eventNamesFrom Ethabi.ParamType.string Ethabi.deEventOpFields._f Ethabi.MetaPath Ethabi.digitsVal Ethabi.TupleParam Ethabi.StateMutability Ethabi.outputImplementation.match_1 Ethabi.deComponents.match_1 Ethabi.Contract.fallback Ethabi.deVec Ethabi.commas Ethabi.toSyntaxString.match_1 Ethabi.Naming.ident Ethabi.deKind Ethabi.deString.match_1 Ethabi.inputNamesFrom.match_1 Ethabi.readStep Ethabi.ReadSt.topOpen Ethabi.deEvent Ethabi.Tok Ethabi.deBool Ethabi.Operation.rec Ethabi.Attribute Ethabi.deEventSeq.match_1 Ethabi.OpSt.anonymous Ethabi.kindsOf Ethabi.deTupleFields._f Ethabi.required.match_1 Ethabi.byteLen Ethabi.OpSt.eventInputs Ethabi.Event.mk Ethabi.deBool.match_1 Ethabi.fromTokenCode Ethabi.vecCode Ethabi.Spec.indexable._sparseCasesOn_1 Ethabi.Err.parseInt Ethabi.fromTemplateParam Ethabi.FieldSt.components Ethabi.parseLogBody Ethabi.Spec.inputsOk Ethabi.declarationsFrom._f Ethabi.natText Ethabi.Function.mk Ethabi.deConstructorSeq Ethabi.Res.casesOn Ethabi.FieldSt.indexed Ethabi.sanitizeName Ethabi.deTupleParam._f Ethabi.Function.stateMutability Ethabi.Spec.nameOk Ethabi.Res.bind.match_1 Ethabi.Json.brecOn Ethabi.Contract.events Ethabi.Spec.Named Ethabi.templateNames Ethabi.Mode.direct Ethabi.deStateMutability Ethabi.outputKinds Ethabi.ParamType.address Ethabi.MetaLit Ethabi.Meta.path Ethabi.deFunctionFields.match_1 Ethabi.EventParam.indexed Ethabi.rustType._f Ethabi.Bytes Ethabi.pushEntry.match_1 Ethabi.finishTupleParam Ethabi.outputImplementation Ethabi.innerTuple._f Ethabi.extendInner Ethabi.Spec.tupleFree Ethabi.innerTuple Ethabi.Spec.contractOk Ethabi.Spec.PlacedAt.below Ethabi.rustType Ethabi.toTokenCode._f Ethabi.Mode.casesOn Ethabi.filterInitFrom._f Ethabi.deConstructor Ethabi.splitAtByte.match_1 Ethabi.nextElement Ethabi.Res.err Ethabi.Function.inputs Ethabi.deStateMutability._sparseCasesOn_3 Ethabi.tokenizeCode._sparseCasesOn_1 Ethabi.Operation.casesOn Ethabi.deTupleParam._sparseCasesOn_1 Ethabi.Spec.Parsed Ethabi.deConstructorFields Ethabi.Spec.eventOk Ethabi.Res.ok Ethabi.Constructor.mk Ethabi.Tok.str Ethabi.deOperation._sparseCasesOn_5 Ethabi.deTupleFields.match_3 Ethabi.templateParamType Ethabi.deComponents._f Ethabi.byteLen.match_1 Ethabi.deFunction Ethabi.EventParam Ethabi.Spec.contractOk.match_1 Ethabi.Spec.PlacedAt.inside Ethabi.numbered Ethabi.deStateMutability._sparseCasesOn_1 Ethabi.MetaPath.mk Ethabi.Json.null Ethabi.Spec.Named.nameValue Ethabi.deParam Ethabi.Function.name Ethabi.deKind.match_1 Ethabi.World.manifestDir Ethabi.deFunctionFields Ethabi.Constructor.inputs Ethabi.inputNamesFrom._f Ethabi.Contract.functions Ethabi.StateMutability.casesOn Ethabi.Spec.indexable Ethabi.Naming.mk Ethabi.Res.instMonad Ethabi.Meta Ethabi.deEventFields Ethabi.tokenizeCode._f Ethabi.innerTuple.match_1 Ethabi.World.mk Ethabi.generateConstructor Ethabi.definitions Ethabi.StateMutability.payable Ethabi.generateLog Ethabi.ReadSt.subtypes Ethabi.deEventFields._f Ethabi.ParamType.casesOn Ethabi.Code Ethabi.deFunctionSeq.match_7 Ethabi.readFuel._f Ethabi.deConstructorFields._f Ethabi.filterBody Ethabi.inputName Ethabi.fromTemplateParam.match_1 Ethabi.readLoop.match_1 Ethabi.Spec.PlacedAt.absolute Ethabi.rustVariable Ethabi.Contract.constructor Ethabi.generateFunction Ethabi.Meta.nameValue Ethabi.Spec.FirstNamed Ethabi.eventExpr Ethabi.ParamType Ethabi.splitTag._f Ethabi.ParamType.ctorIdx Ethabi.Constructor Ethabi.indexSub Ethabi.declarationsFrom.match_1 Ethabi.declarationsFrom Ethabi.Json.below_3 Ethabi.Spec.indexable._f Ethabi.isDigit Ethabi.rustType.match_1 Ethabi.deStateMutability._sparseCasesOn_2 Ethabi.ParamType.brecOn.go Ethabi.deOperations._f Ethabi.parseUsize Ethabi.TupleParam.kind Ethabi.readLoop Ethabi.deOperation Ethabi.ParamType.bytes Ethabi.Err Ethabi.Tok.word Ethabi.Contract.mk Ethabi.readLoop._f Ethabi.splitTag Ethabi.mapRes.match_1 Ethabi.Str Ethabi.fromTemplateParam._sparseCasesOn_1 Ethabi.EventParam.kind Ethabi.deOperation.match_5 Ethabi.deFunctionFields._f Ethabi.Naming Ethabi.Json.casesOn Ethabi.setTupleComponents Ethabi.Json.rec_3 Ethabi.commas.match_1 Ethabi.generateEvent Ethabi.Operation.constructor Ethabi.tokenizeCode.match_1 Ethabi.trailing._f Ethabi.FieldSt.mk Ethabi.Json.brecOn.go Ethabi.Tok.num Ethabi.ReadSt.subtuples Ethabi.logFields Ethabi.Event.inputs Ethabi.deFunctionSeq Ethabi.filterInitFrom Ethabi.ReadSt.mk Ethabi.Contract Ethabi.Meta.list Ethabi.Json.rec_1 Ethabi.deEventOpFields Ethabi.deFunctionSeq.match_5 Ethabi.StateMutability.view Ethabi.OpSt.name Ethabi.Json.below_2 Ethabi.readFuel.match_1 Ethabi.stripPlus._sparseCasesOn_1 Ethabi.Json Ethabi.deOperation.match_1 Ethabi.readOpen Ethabi.EventParam.mk Ethabi.deOperationSeq.match_1 Ethabi.Contract.allEvents Ethabi.deEventParam Ethabi.Spec.Parsed.good Ethabi.World.file Ethabi.commas._f Ethabi.tokenizeCode Ethabi.splitTag.match_1 Ethabi.logInit Ethabi.mapRes._f Ethabi.OpSt.inputs Ethabi.byteLen._f Ethabi.eventName Ethabi.deBool._sparseCasesOn_1 Ethabi.OpSt.outputs Ethabi.deTupleParam.match_1 Ethabi.constructorBody Ethabi.Spec.indexable.match_1 Ethabi.MetaLit.str Ethabi.deFunctionSeq.match_1 Ethabi.Event.name Ethabi.txt Ethabi.deArr Ethabi.deOperation.match_3 Ethabi.trailing Ethabi.trailing.match_1 Ethabi.Err.serdeJson Ethabi.deTupleParams._f
c118_determines_encode_function Ethabi.Function Ethabi.Spec.signedDecimal._sparseCasesOn_1 Ethabi.Spec.DenotesEach Ethabi.deString._sparseCasesOn_1 Ethabi.OpSt.mk Ethabi.Spec.typeNames._f Ethabi.Json.below_1 Ethabi.stripPlus Ethabi.mutabilityVariant Ethabi.deVec._f Ethabi.Profile Ethabi.Operation.fallback Ethabi.Props.PicksFunction Ethabi.Err.hex Ethabi.deParamFields Ethabi.Param.name Ethabi.Json.obj Ethabi.deComponents Ethabi.Event Ethabi.Json.str Ethabi.Spec.hexadecimal Ethabi.Spec.sound Ethabi.Res.rec Ethabi.HexReason.character Ethabi.Spec.DenotesMember Ethabi.stripPlus.match_1 Ethabi.deComponents._sparseCasesOn_1 Ethabi.Json.rec Ethabi.Spec.hexFails Ethabi.arrayNum Ethabi.ParamType.uint Ethabi.pushEntry Ethabi.deOperationSeq Ethabi.startsWith Ethabi.Spec.decDigit Ethabi.ParamType.rec Ethabi.Spec.DenotesOperation.eventArray Ethabi.Spec.hexText Ethabi.deStateMutability._sparseCasesOn_4 Ethabi.Spec.AroundTuple Ethabi.StateMutability.rec Ethabi.Mode Ethabi.FieldSt.internalType Ethabi.Spec.AroundTuple.tuple Ethabi.deOperationSeq._sparseCasesOn_1 Ethabi.Param.kind Ethabi.Props.LoadFails Ethabi.splitAtByte._f Ethabi.Spec.decimal Ethabi.read Ethabi.Reason.notOpened Ethabi.Props.RefusesFunction Ethabi.deContract Ethabi.deArr.match_1 Ethabi.Token.array Ethabi.deTupleParams.match_1 Ethabi.ParamType.rec_1 Ethabi.Token.tuple Ethabi.EventParam.name Ethabi.Json.arr Ethabi.deEventSeq Ethabi.StateMutability.nonPayable Ethabi.Spec.DenotesType.tuple Ethabi.Spec.KnownKeys Ethabi.indexVec Ethabi.Param.mk Ethabi.ReadSt Ethabi.Address Ethabi.Json.below Ethabi.readLoop.match_3 Ethabi.TupleParam.mk Ethabi.lit Ethabi.Spec.DenotesEventParam Ethabi.deOperations.match_1 Ethabi.Spec.DenotesTail.both Ethabi.Reason Ethabi.Reason.unknownFunction Ethabi.Contract.add Ethabi.Json.bool Ethabi.Reason.unknownEvent Ethabi.Spec.bytesIn Ethabi.Mode.rec Ethabi.deArr._sparseCasesOn_1 Ethabi.Contract.receive Ethabi.splitTag.match_3 Ethabi.Spec.mutabilityWord.match_1 Ethabi.U256 Ethabi.Json.ctorIdx Ethabi.indexVec.match_1 Ethabi.Contract.add.match_1 Ethabi.FieldSt Ethabi.TupleParam.name Ethabi.Err.other Ethabi.Operation.event Ethabi.Command.decodeLog Ethabi.Err.invalidData Ethabi.deParamFields._f Ethabi.Operation.ctorIdx Ethabi.Function.constant Ethabi.Spec.entriesOf Ethabi.Spec.DenotesEach.nil Ethabi.Spec.WithMembers.tuple Ethabi.readComma Ethabi.readElementary Ethabi.utf8Char Ethabi.Spec.typeName._f Ethabi.Spec.failsForAt._f Ethabi.ReadSt.nested Ethabi.Mode.buffered Ethabi.Spec.outside._f Ethabi.Spec.signedDecimal Ethabi.deName Ethabi.Json.num Ethabi.Spec.DefaultBool Ethabi.Err.invalidName Ethabi.ParamType.fixedArray Ethabi.Props.PicksFunction.byName Ethabi.Reason.hex Ethabi.readFuel Ethabi.deOperations Ethabi.required Ethabi.Spec.numeral._f Ethabi.Operation.function Ethabi.Res.bind Ethabi.Spec.DenotesMembers Ethabi.Param.internalType Ethabi.Param Ethabi.Res Ethabi.Spec.DenotesOperation.functionArray Ethabi.Token.string Ethabi.Spec.hexOfOtherLength Ethabi.setTupleComponents.match_1 Ethabi.Operation Ethabi.deVec.match_1 Ethabi.deFunctionSeq.match_3 Ethabi.Spec.WordJson Ethabi.OpSt.constant Ethabi.FieldSt.kind Ethabi.Res.panic Ethabi.strSlice Ethabi.ReadSt.lastItem Ethabi.ParamType.fixedBytes Ethabi.Token.int Ethabi.ParamType.int Ethabi.Profile.release Ethabi.StateMutability.pure Ethabi.Props.functionText Ethabi.Event.anonymous Ethabi.ParamType.below Ethabi.OpSt Ethabi.ParamType.tuple Ethabi.Props.declaredFunctions.match_1 Ethabi.endOfSeq Ethabi.Spec.OptionalString.match_1 Ethabi.Reason.underflow Ethabi.readClose Ethabi.Spec.hexFailsAt Ethabi.Token.bytes Ethabi.pushEntry._f Ethabi.Spec.listOf Ethabi.strSlice.match_1 Ethabi.Spec.WithMembers Ethabi.Reason.invalidName Ethabi.Operation.receive Ethabi.Props.RefusesFunction.ambiguous Ethabi.splitAtByte Ethabi.Spec.signedDecimal.match_1 Ethabi.deString Ethabi.Spec.DenotesParam Ethabi.Spec.spans Ethabi.Spec.failsFor._f Ethabi.Spec.WithMembers.fixedArray Ethabi.deStateMutability.match_1 Ethabi.deTupleFields.match_1 Ethabi.Spec.WordJson.object Ethabi.ParamType.bool Ethabi.innerTuple._sparseCasesOn_1 Ethabi.Err.utf8 Ethabi.ParamType.array Ethabi.Json.rec_2 Ethabi.ParamType.below_1 Ethabi.FieldSt.name Ethabi.Spec.DenotesMembers.nil Ethabi.ParamType.brecOn Ethabi.extendInner._f Ethabi.Spec.mutabilityWord Ethabi.OpSt.stateMutability Ethabi.Function.outputs Ethabi.Spec.depth Ethabi.ParamType.string Ethabi.deEventOpFields._f Ethabi.digitsVal Ethabi.Spec.numeral Ethabi.Reason.decLength Ethabi.TupleParam Ethabi.StateMutability Ethabi.deComponents.match_1 Ethabi.Contract.fallback Ethabi.Spec.hexDigitAny Ethabi.Spec.elementText.match_1 Ethabi.deVec Ethabi.deKind Ethabi.Spec.intFails Ethabi.Spec.DenotesOperation.event Ethabi.deString.match_1 Ethabi.readStep Ethabi.ReadSt.topOpen Ethabi.Spec.numeral._sparseCasesOn_1 Ethabi.deEvent Ethabi.deBool Ethabi.Spec.DenotesOperation.receive Ethabi.Operation.rec Ethabi.deEventSeq.match_1 Ethabi.OpSt.anonymous Ethabi.deTupleFields._f Ethabi.Spec.denotesEach._f Ethabi.required.match_1 Ethabi.byteLen Ethabi.Spec.DenotesOperation.receiveArray Ethabi.OpSt.eventInputs Ethabi.Reason.ambiguous Ethabi.Event.mk Ethabi.deBool.match_1 Ethabi.Spec.decFails Ethabi.Props.RefusesFunction.unknownName Ethabi.Err.parseInt Ethabi.Spec.denotes._f Ethabi.FieldSt.components Ethabi.Spec.DenotesOperation.constructor Ethabi.Spec.DenotesTail Ethabi.Function.mk Ethabi.Spec.typeNames.match_1 Ethabi.deConstructorSeq Ethabi.Res.casesOn Ethabi.FieldSt.indexed Ethabi.sanitizeName Ethabi.deTupleParam._f Ethabi.Function.stateMutability Ethabi.Res.bind.match_1 Ethabi.Json.brecOn Ethabi.Contract.events Ethabi.Spec.denotes.match_1 Ethabi.Mode.direct Ethabi.deStateMutability Ethabi.Spec.failsFor.match_1 Ethabi.ParamType.address Ethabi.Spec.denotesEach Ethabi.Spec.isHexDigit Ethabi.deFunctionFields.match_1 Ethabi.EventParam.indexed Ethabi.Spec.unmatched Ethabi.Bytes Ethabi.pushEntry.match_1 Ethabi.finishTupleParam Ethabi.innerTuple._f Ethabi.Reason.invalidData Ethabi.extendInner Ethabi.innerTuple Ethabi.Told.ok Ethabi.Mode.casesOn Ethabi.deConstructor Ethabi.splitAtByte.match_1 Ethabi.Spec.AroundTuple.array Ethabi.nextElement Ethabi.Res.err Ethabi.Function.inputs Ethabi.deStateMutability._sparseCasesOn_3 Ethabi.Operation.casesOn Ethabi.deTupleParam._sparseCasesOn_1 Ethabi.Spec.cuts Ethabi.Props.declaredFunctions Ethabi.Spec.DenotesName Ethabi.deConstructorFields Ethabi.Command.encodeFunction Ethabi.Res.ok Ethabi.TupleParam.internalType Ethabi.Constructor.mk Ethabi.Spec.DenotesType Ethabi.Props.RefusesFunction.otherSignature Ethabi.Spec.DenotesTail.none Ethabi.Spec.DenotesOperation Ethabi.deOperation._sparseCasesOn_5 Ethabi.deTupleFields.match_3 Ethabi.deComponents._f Ethabi.byteLen.match_1 Ethabi.deFunction Ethabi.EventParam Ethabi.deStateMutability._sparseCasesOn_1 Ethabi.beNat Ethabi.Json.null Ethabi.Told.err Ethabi.Told.panic Ethabi.deParam Ethabi.Function.name Ethabi.deKind.match_1 Ethabi.Profile.debug Ethabi.deFunctionFields Ethabi.Spec.DenotesOperation.function Ethabi.Command.decodeParams Ethabi.Spec.Once Ethabi.Contract.functions Ethabi.HexReason Ethabi.Tokenizer.lenient Ethabi.Token.address Ethabi.StateMutability.casesOn Ethabi.Res.instMonad Ethabi.deEventFields Ethabi.Token.fixedBytes Ethabi.innerTuple.match_1 Ethabi.Spec.DenotesOperation.constructorArray Ethabi.Props.RefusesFunction.unknownInSignature Ethabi.Spec.DenotesType.plain Ethabi.StateMutability.payable Ethabi.Spec.Absent Ethabi.Spec.DenotesTail.constant Ethabi.ReadSt.subtypes Ethabi.deEventFields._f Ethabi.ParamType.casesOn Ethabi.deFunctionSeq.match_7 Ethabi.ParamType.brecOn_1 Ethabi.readFuel._f Ethabi.deConstructorFields._f Ethabi.Spec.failsFor Ethabi.Spec.firstRefused Ethabi.Spec.DenotesEach.cons Ethabi.readLoop.match_1 Ethabi.Spec.outside Ethabi.Command Ethabi.Spec.signature Ethabi.Contract.constructor Ethabi.ParamType Ethabi.splitTag._f Ethabi.Spec.partOf Ethabi.Reason.overflow Ethabi.Spec.quoted Ethabi.ParamType.ctorIdx Ethabi.Spec.spans._f Ethabi.Constructor Ethabi.Tokenizer Ethabi.Spec.WordJson.string Ethabi.indexSub Ethabi.Token Ethabi.Command.decodeFunction Ethabi.Json.below_3 Ethabi.Told Ethabi.Spec.outside.match_1 Ethabi.isDigit Ethabi.deStateMutability._sparseCasesOn_2 Ethabi.Command.encodeParams Ethabi.ParamType.brecOn.go Ethabi.deOperations._f Ethabi.parseUsize Ethabi.TupleParam.kind Ethabi.readLoop Ethabi.Spec.bracketed Ethabi.Token.uint Ethabi.Spec.numeral.match_1 Ethabi.deOperation Ethabi.ParamType.bytes Ethabi.Err Ethabi.Contract.mk Ethabi.Spec.typeNames Ethabi.readLoop._f Ethabi.splitTag Ethabi.Props.declaredFunctions._sparseCasesOn_1 Ethabi.HexReason.odd Ethabi.Spec.spans.match_1 Ethabi.Str Ethabi.Spec.failsForAt.match_1 Ethabi.EventParam.kind Ethabi.deOperation.match_5 Ethabi.Props.PicksFunction.bySignature Ethabi.deFunctionFields._f Ethabi.Spec.denotes Ethabi.Spec.isFullHex Ethabi.Reason.plainHex Ethabi.Json.casesOn Ethabi.setTupleComponents Ethabi.Json.rec_3 Ethabi.Operation.constructor Ethabi.Spec.DenotesMutability Ethabi.trailing._f Ethabi.FieldSt.mk Ethabi.Json.brecOn.go Ethabi.Spec.AroundTuple.fixedArray Ethabi.ReadSt.subtuples Ethabi.Event.inputs Ethabi.deFunctionSeq Ethabi.Spec.WithMembers.array Ethabi.Reason.decCharacter Ethabi.Props.Declares Ethabi.ReadSt.mk Ethabi.Contract Ethabi.Tokenizer.strict Ethabi.Reason.foreign Ethabi.Json.rec_1 Ethabi.deEventOpFields Ethabi.Spec.partsThen Ethabi.ParamType.brecOn_1.go Ethabi.deFunctionSeq.match_5 Ethabi.StateMutability.view Ethabi.OpSt.name Ethabi.Json.below_2 Ethabi.Spec.denotesEach.match_1 Ethabi.readFuel.match_1 Ethabi.stripPlus._sparseCasesOn_1 Ethabi.Json Ethabi.Token.bool Ethabi.Spec.DenotesOperation.fallback Ethabi.deOperation.match_1 Ethabi.readOpen Ethabi.EventParam.mk Ethabi.deOperationSeq.match_1 Ethabi.deEventParam Ethabi.Token.fixedArray Ethabi.Spec.DenotesMembers.cons Ethabi.splitTag.match_1 Ethabi.Word Ethabi.OpSt.inputs Ethabi.byteLen._f Ethabi.deBool._sparseCasesOn_1 Ethabi.OpSt.outputs Ethabi.Spec.hexDigitAny.match_1 Ethabi.deTupleParam.match_1 Ethabi.Spec.DenotesOperation.fallbackArray Ethabi.Spec.OptionalString Ethabi.deFunctionSeq.match_1 Ethabi.Event.name Ethabi.deArr Ethabi.Spec.CutAtParen Ethabi.deOperation.match_3 Ethabi.trailing Ethabi.trailing.match_1 Ethabi.Spec.DenotesMember.mk Ethabi.Spec.isCut Ethabi.Spec.DenotesType.unused Ethabi.Err.serdeJson Ethabi.deTupleParams._f Ethabi.Spec.typeName.match_1
c118_determines_decode_function Ethabi.asUsize Ethabi.Function Ethabi.ParamType.isDynamic.match_1 Ethabi.Spec.DenotesEach Ethabi.deString._sparseCasesOn_1 Ethabi.OpSt.mk Ethabi.Spec.typeNames._f Ethabi.Json.below_1 Ethabi.stripPlus Ethabi.mutabilityVariant Ethabi.deVec._f Ethabi.Profile Ethabi.Operation.fallback Ethabi.Props.PicksFunction Ethabi.Err.hex Ethabi.deParamFields Ethabi.Param.name Ethabi.Json.obj Ethabi.deComponents Ethabi.Event Ethabi.sliceFrom Ethabi.Json.str Ethabi.Spec.hexadecimal Ethabi.Res.rec Ethabi.HexReason.character Ethabi.Spec.DenotesMember Ethabi.stripPlus.match_1 Ethabi.ParamType.isDynamic Ethabi.deComponents._sparseCasesOn_1 Ethabi.Json.rec Ethabi.decodeParam.match_1 Ethabi.Spec.hexFails Ethabi.arrayNum Ethabi.ParamType.uint Ethabi.pushEntry Ethabi.deOperationSeq Ethabi.startsWith Ethabi.ParamType.rec Ethabi.Spec.DenotesOperation.eventArray Ethabi.Spec.hexText Ethabi.deStateMutability._sparseCasesOn_4 Ethabi.Spec.AroundTuple Ethabi.instReprProfile.repr.match_1 Ethabi.StateMutability.rec Ethabi.Mode Ethabi.FieldSt.internalType Ethabi.decodeParams._f Ethabi.Spec.AroundTuple.tuple Ethabi.deOperationSeq._sparseCasesOn_1 Ethabi.Param.kind Ethabi.second4 Ethabi.Props.LoadFails Ethabi.splitAtByte._f Ethabi.read Ethabi.Reason.notOpened Ethabi.Props.RefusesFunction Ethabi.deContract Ethabi.deArr.match_1 Ethabi.Token.array Ethabi.ParamType.isDynamic._f Ethabi.deTupleParams.match_1 Ethabi.ParamType.rec_1 Ethabi.ParamType.isEmptyBytesValidEncoding Ethabi.Token.tuple Ethabi.EventParam.name Ethabi.Json.arr Ethabi.deEventSeq Ethabi.StateMutability.nonPayable Ethabi.Spec.DenotesType.tuple Ethabi.Spec.KnownKeys Ethabi.indexVec Ethabi.Param.mk Ethabi.ReadSt Ethabi.replacementChar Ethabi.Address Ethabi.Json.below Ethabi.readLoop.match_3 Ethabi.TupleParam.mk Ethabi.lit Ethabi.Spec.DenotesEventParam Ethabi.deOperations.match_1 Ethabi.peek32 Ethabi.Spec.DenotesTail.both Ethabi.Reason Ethabi.Reason.unknownFunction Ethabi.Contract.add Ethabi.Json.bool Ethabi.Reason.unknownEvent Ethabi.Spec.bytesIn Ethabi.Mode.rec Ethabi.deArr._sparseCasesOn_1 Ethabi.Contract.receive Ethabi.splitTag.match_3 Ethabi.Spec.mutabilityWord.match_1 Ethabi.U256 Ethabi.Json.ctorIdx Ethabi.indexVec.match_1 Ethabi.Contract.add.match_1 Ethabi.FieldSt Ethabi.TupleParam.name Ethabi.Err.other Ethabi.Operation.event Ethabi.Command.decodeLog Ethabi.Err.invalidData Ethabi.deParamFields._f Ethabi.Operation.ctorIdx Ethabi.Function.constant Ethabi.Spec.entriesOf Ethabi.Spec.DenotesEach.nil Ethabi.Spec.WithMembers.tuple Ethabi.readComma Ethabi.fromUtf8Lossy._f Ethabi.readElementary Ethabi.utf8Char Ethabi.Spec.typeName._f Ethabi.usizeAdd Ethabi.ReadSt.nested Ethabi.Mode.buffered Ethabi.deName Ethabi.Json.num Ethabi.takeBytes Ethabi.Spec.DefaultBool Ethabi.Err.invalidName Ethabi.ParamType.fixedArray Ethabi.Props.PicksFunction.byName Ethabi.Reason.hex Ethabi.readFuel Ethabi.deOperations Ethabi.required Ethabi.Spec.numeral._f Ethabi.Operation.function Ethabi.decodeLoop.match_1 Ethabi.Res.bind Ethabi.Spec.DenotesMembers Ethabi.Param.internalType Ethabi.Param Ethabi.Res Ethabi.Spec.DenotesOperation.functionArray Ethabi.Token.string Ethabi.machine Ethabi.setTupleComponents.match_1 Ethabi.Profile.casesOn Ethabi.Operation Ethabi.deVec.match_1 Ethabi.deFunctionSeq.match_3 Ethabi.Spec.WordJson Ethabi.Err.casesOn Ethabi.OpSt.constant Ethabi.FieldSt.kind Ethabi.Res.panic Ethabi.strSlice Ethabi.ReadSt.lastItem Ethabi.ParamType.fixedBytes Ethabi.Token.int Ethabi.ParamType.int Ethabi.Profile.release Ethabi.StateMutability.pure Ethabi.Props.functionText Ethabi.Event.anonymous Ethabi.ParamType.below Ethabi.OpSt Ethabi.ParamType.tuple Ethabi.Props.declaredFunctions.match_1 Ethabi.copyWord Ethabi.endOfSeq Ethabi.Spec.OptionalString.match_1 Ethabi.Reason.underflow Ethabi.readClose Ethabi.Token.bytes Ethabi.pushEntry._f Ethabi.strSlice.match_1 Ethabi.Spec.WithMembers Ethabi.Reason.invalidName Ethabi.Operation.receive Ethabi.Props.RefusesFunction.ambiguous Ethabi.splitAtByte Ethabi.deString Ethabi.Spec.DenotesParam Ethabi.Spec.WithMembers.fixedArray Ethabi.deStateMutability.match_1 Ethabi.deTupleFields.match_1 Ethabi.Spec.WordJson.object Ethabi.ParamType.bool Ethabi.ParamType.isDynamic._sparseCasesOn_1 Ethabi.innerTuple._sparseCasesOn_1 Ethabi.Err.utf8 Ethabi.ParamType.array Ethabi.Json.rec_2 Ethabi.ParamType.below_1 Ethabi.FieldSt.name Ethabi.Props.DataFails Ethabi.fromUtf8Lossy.match_3 Ethabi.Spec.DenotesMembers.nil Ethabi.ParamType.brecOn Ethabi.extendInner._f Ethabi.Spec.mutabilityWord Ethabi.OpSt.stateMutability Ethabi.Function.outputs Ethabi.ParamType.string Ethabi.deEventOpFields._f Ethabi.digitsVal Ethabi.Spec.numeral Ethabi.Reason.decLength Ethabi.TupleParam Ethabi.StateMutability Ethabi.deComponents.match_1 Ethabi.Contract.fallback Ethabi.Spec.hexDigitAny Ethabi.Spec.elementText.match_1 Ethabi.deVec Ethabi.deKind Ethabi.Spec.DenotesOperation.event Ethabi.second3 Ethabi.deString.match_1 Ethabi.readStep Ethabi.ReadSt.topOpen Ethabi.Spec.numeral._sparseCasesOn_1 Ethabi.deEvent Ethabi.Err.rec Ethabi.deBool Ethabi.wordAddress._proof_1 Ethabi.Spec.DenotesOperation.receive Ethabi.fromUtf8Lossy Ethabi.Operation.rec Ethabi.deEventSeq.match_1 Ethabi.OpSt.anonymous Ethabi.decode Ethabi.deTupleFields._f Ethabi.required.match_1 Ethabi.byteLen Ethabi.Spec.DenotesOperation.receiveArray Ethabi.OpSt.eventInputs Ethabi.fromUtf8Lossy.match_1 Ethabi.Reason.ambiguous Ethabi.Event.mk Ethabi.decodeLoop.match_5 Ethabi.deBool.match_1 Ethabi.Err.ctorIdx Ethabi.Props.RefusesFunction.unknownName Ethabi.Err.parseInt Ethabi.FieldSt.components Ethabi.Spec.DenotesOperation.constructor Ethabi.Spec.DenotesTail Ethabi.Function.mk Ethabi.Spec.typeNames.match_1 Ethabi.deConstructorSeq Ethabi.peek Ethabi.Res.casesOn Ethabi.FieldSt.indexed Ethabi.sanitizeName Ethabi.deTupleParam._f Ethabi.Function.stateMutability Ethabi.Res.bind.match_1 Ethabi.Json.brecOn Ethabi.Contract.events Ethabi.Mode.direct Ethabi.utf8CharWidth Ethabi.decodeParams.match_1 Ethabi.deStateMutability Ethabi.ParamType.address Ethabi.Spec.isHexDigit Ethabi.deFunctionFields.match_1 Ethabi.EventParam.indexed Ethabi.Bytes Ethabi.pushEntry.match_1 Ethabi.finishTupleParam Ethabi.innerTuple._f Ethabi.Reason.invalidData Ethabi.extendInner Ethabi.innerTuple Ethabi.Told.ok Ethabi.Mode.casesOn Ethabi.deConstructor Ethabi.splitAtByte.match_1 Ethabi.Spec.AroundTuple.array Ethabi.nextElement Ethabi.Res.err Ethabi.Function.inputs Ethabi.deStateMutability._sparseCasesOn_3 Ethabi.Operation.casesOn Ethabi.deTupleParam._sparseCasesOn_1 Ethabi.Props.declaredFunctions Ethabi.Spec.DenotesName Ethabi.deConstructorFields Ethabi.Command.encodeFunction Ethabi.Res.ok Ethabi.TupleParam.internalType Ethabi.Constructor.mk Ethabi.Spec.DenotesType Ethabi.Props.RefusesFunction.otherSignature Ethabi.Spec.DenotesTail.none Ethabi.Spec.DenotesOperation Ethabi.deOperation._sparseCasesOn_5 Ethabi.deTupleFields.match_3 Ethabi.deComponents._f Ethabi.byteLen.match_1 Ethabi.fromUtf8Lossy.match_5 Ethabi.U256.ofWord Ethabi.deFunction Ethabi.EventParam Ethabi.deStateMutability._sparseCasesOn_1 Ethabi.beNat Ethabi.Json.null Ethabi.Told.err Ethabi.Told.panic Ethabi.deParam Ethabi.Function.name Ethabi.deKind.match_1 Ethabi.Profile.debug Ethabi.wordLow Ethabi.decodeParams Ethabi.deFunctionFields Ethabi.Spec.DenotesOperation.function Ethabi.Command.decodeParams Ethabi.Spec.Once Ethabi.Contract.functions Ethabi.HexReason Ethabi.Token.address Ethabi.StateMutability.casesOn Ethabi.Res.instMonad Ethabi.deEventFields Ethabi.Token.fixedBytes Ethabi.asBool Ethabi.innerTuple.match_1 Ethabi.Spec.DenotesOperation.constructorArray Ethabi.Props.RefusesFunction.unknownInSignature Ethabi.Spec.DenotesType.plain Ethabi.ParamType.usizeOkAll.match_1 Ethabi.StateMutability.payable Ethabi.decodeLoop._f Ethabi.Spec.Absent Ethabi.Spec.DenotesTail.constant Ethabi.ReadSt.subtypes Ethabi.deEventFields._f Ethabi.ParamType.casesOn Ethabi.decodeLoop.match_3 Ethabi.deFunctionSeq.match_7 Ethabi.ParamType.brecOn_1 Ethabi.readFuel._f Ethabi.deConstructorFields._f Ethabi.Reason.ofErr Ethabi.Spec.DenotesEach.cons Ethabi.readLoop.match_1 Ethabi.Reason.ofErr.match_1 Ethabi.Command Ethabi.Reason.ofErr._sparseCasesOn_1 Ethabi.Spec.signature Ethabi.Contract.constructor Ethabi.ParamType Ethabi.decodeLoop Ethabi.splitTag._f Ethabi.Reason.overflow Ethabi.ParamType.ctorIdx Ethabi.Constructor Ethabi.Spec.WordJson.string Ethabi.indexSub Ethabi.Token Ethabi.isCont Ethabi.Command.decodeFunction Ethabi.Json.below_3 Ethabi.Told Ethabi.isDigit Ethabi.deStateMutability._sparseCasesOn_2 Ethabi.Command.encodeParams Ethabi.ParamType.brecOn.go Ethabi.deOperations._f Ethabi.parseUsize Ethabi.TupleParam.kind Ethabi.readLoop Ethabi.Token.uint Ethabi.Spec.numeral.match_1 Ethabi.deOperation Ethabi.ParamType.bytes Ethabi.Err Ethabi.ParamType.isEmptyBytesValidEncoding.match_1 Ethabi.Contract.mk Ethabi.ParamType.anyDynamic._f Ethabi.Spec.typeNames Ethabi.readLoop._f Ethabi.splitTag Ethabi.slice Ethabi.Props.declaredFunctions._sparseCasesOn_1 Ethabi.HexReason.odd Ethabi.Str Ethabi.EventParam.kind Ethabi.deOperation.match_5 Ethabi.Props.PicksFunction.bySignature Ethabi.deFunctionFields._f Ethabi.Reason.plainHex Ethabi.Json.casesOn Ethabi.setTupleComponents Ethabi.Json.rec_3 Ethabi.Operation.constructor Ethabi.Spec.DenotesMutability Ethabi.trailing._f Ethabi.FieldSt.mk Ethabi.Json.brecOn.go Ethabi.Spec.AroundTuple.fixedArray Ethabi.ReadSt.subtuples Ethabi.Event.inputs Ethabi.deFunctionSeq Ethabi.Spec.WithMembers.array Ethabi.Reason.decCharacter Ethabi.Props.Declares Ethabi.ReadSt.mk Ethabi.Contract Ethabi.ParamType.anyDynamic Ethabi.Reason.foreign Ethabi.Json.rec_1 Ethabi.deEventOpFields Ethabi.wordAddress Ethabi.ParamType.brecOn_1.go Ethabi.deFunctionSeq.match_5 Ethabi.StateMutability.view Ethabi.OpSt.name Ethabi.Json.below_2 Ethabi.fromUtf8Lossy.match_7 Ethabi.readFuel.match_1 Ethabi.stripPlus._sparseCasesOn_1 Ethabi.Json Ethabi.Token.bool Ethabi.Spec.DenotesOperation.fallback Ethabi.deOperation.match_1 Ethabi.readOpen Ethabi.EventParam.mk Ethabi.deOperationSeq.match_1 Ethabi.deEventParam Ethabi.Token.fixedArray Ethabi.Spec.DenotesMembers.cons Ethabi.splitTag.match_1 Ethabi.Word Ethabi.OpSt.inputs Ethabi.byteLen._f Ethabi.deBool._sparseCasesOn_1 Ethabi.OpSt.outputs Ethabi.Spec.hexDigitAny.match_1 Ethabi.deTupleParam.match_1 Ethabi.ParamType.isEmptyBytesValidEncoding._sparseCasesOn_1 Ethabi.Spec.DenotesOperation.fallbackArray Ethabi.Spec.OptionalString Ethabi.deFunctionSeq.match_1 Ethabi.Event.name Ethabi.deArr Ethabi.Spec.CutAtParen Ethabi.deOperation.match_3 Ethabi.trailing Ethabi.emptyDataMsg Ethabi.trailing.match_1 Ethabi.Spec.DenotesMember.mk Ethabi.decodeParam._f Ethabi.Spec.DenotesType.unused Ethabi.Profile.rec Ethabi.Err.serdeJson Ethabi.deTupleParams._f Ethabi.Spec.typeName.match_1
c85_determines_encode_params Ethabi.Spec.signedDecimal._sparseCasesOn_1 Ethabi.stripPlus Ethabi.Profile Ethabi.Props.Row.value Ethabi.Err.hex Ethabi.Json.obj Ethabi.Token.anyDynamic._f Ethabi.Json.str Ethabi.Spec.hexadecimal Ethabi.Spec.sound Ethabi.Res.rec Ethabi.stripPlus.match_1 Ethabi.arrayNum Ethabi.ParamType.uint Ethabi.Mediate.rec_1 Ethabi.startsWith Ethabi.Spec.decDigit Ethabi.ParamType.rec Ethabi.Spec.hexText Ethabi.instReprProfile.repr.match_1 Ethabi.Token.anyDynamic Ethabi.splitAtByte._f Ethabi.Spec.decimal Ethabi.padU32._proof_1 Ethabi.read Ethabi.Token.array Ethabi.u32add Ethabi.Mediate.tails Ethabi.encodeToken._f Ethabi.ParamType.rec_1 Ethabi.Mediate.tailLen._f Ethabi.Token.tuple Ethabi.Mediate.headLen Ethabi.Json.arr Ethabi.Mediate.headLen._f Ethabi.Mediate.heads.match_1 Ethabi.Props.Row Ethabi.indexVec Ethabi.ReadSt Ethabi.Address Ethabi.readLoop.match_3 Ethabi.lit Ethabi.Props.Row.mk Ethabi.Mediate.below Ethabi.Json.bool Ethabi.Spec.bytesIn Ethabi.Mediate.prefixedTuple Ethabi.padAddress._proof_1 Ethabi.U256 Ethabi.Token.ctorIdx Ethabi.indexVec.match_1 Ethabi.Err.other Ethabi.Command.decodeLog Ethabi.Err.invalidData Ethabi.Props.Row.type Ethabi.readComma Ethabi.readElementary Ethabi.utf8Char Ethabi.ReadSt.nested Ethabi.encodeTokens Ethabi.Spec.outside._f Ethabi.Spec.signedDecimal Ethabi.Json.num Ethabi.Props.Row.Stands Ethabi.u32mul Ethabi.Err.invalidName Ethabi.ParamType.fixedArray Ethabi.readFuel Ethabi.Spec.numeral._f Ethabi.Res.bind Ethabi.Mediate.tailLen Ethabi.Res Ethabi.Token.string Ethabi.machine Ethabi.Profile.casesOn Ethabi.Mediate.heads._f Ethabi.Res.panic Ethabi.strSlice Ethabi.padAddress Ethabi.Mediate.below_1 Ethabi.ReadSt.lastItem Ethabi.ParamType.fixedBytes Ethabi.Token.int Ethabi.ParamType.int Ethabi.Profile.release Ethabi.Mediate Ethabi.Token.isDynamic._f Ethabi.Mediate.sumHeadLen._f Ethabi.Props.Row.token Ethabi.ParamType.below Ethabi.Props.Row.kind Ethabi.ParamType.tuple Ethabi.readClose Ethabi.Mediate.tail._f Ethabi.Token.bytes Ethabi.Spec.listOf Ethabi.strSlice.match_1 Ethabi.splitAtByte Ethabi.Spec.signedDecimal.match_1 Ethabi.Spec.spans Ethabi.ParamType.bool Ethabi.Token.below_1 Ethabi.Err.utf8 Ethabi.ParamType.array Ethabi.ParamType.below_1 Ethabi.ParamType.brecOn Ethabi.Mediate.headsZero._f Ethabi.Spec.depth Ethabi.ParamType.string Ethabi.digitsVal Ethabi.Spec.numeral Ethabi.encodeTokens.match_1 Ethabi.Mediate.sumLen._f Ethabi.Spec.hexDigitAny Ethabi.Spec.elementText.match_1 Ethabi.Mediate.head Ethabi.readStep Ethabi.ReadSt.topOpen Ethabi.Spec.numeral._sparseCasesOn_1 Ethabi.Mediate.rawTuple Ethabi.Spec.denotesEach._f Ethabi.byteLen Ethabi.Mediate.brecOn_1.go Ethabi.encodeHeadTail Ethabi.Err.parseInt Ethabi.Spec.denotes._f Ethabi.Mediate.head.match_1 Ethabi.Token.casesOn Ethabi.Res.casesOn Ethabi.Mediate.head._f Ethabi.Res.bind.match_1 Ethabi.padBytes Ethabi.Mediate.sumHeadLen.match_1 Ethabi.Spec.denotes.match_1 Ethabi.Mediate.prefixedArray Ethabi.ParamType.address Ethabi.Mediate.brecOn Ethabi.Mediate.sumHeadLen Ethabi.Token.anyDynamic.match_1 Ethabi.Bytes Ethabi.padChunk Ethabi.encodeToken.match_1 Ethabi.Token.isDynamic.match_1 Ethabi.splitAtByte.match_1 Ethabi.padFixedBytes Ethabi.Res.err Ethabi.Spec.cuts Ethabi.Mediate.headLen.match_1 Ethabi.Command.encodeFunction Ethabi.Res.ok Ethabi.beBytes.match_1 Ethabi.byteLen.match_1 Ethabi.beNat Ethabi.Json.null Ethabi.Mediate.heads Ethabi.U256.toWord._proof_1 Ethabi.Token.brecOn_1.go Ethabi.Profile.debug Ethabi.Command.decodeParams Ethabi.padU32 Ethabi.Mediate.raw Ethabi.asU32 Ethabi.Mediate.headsZero.match_1 Ethabi.Tokenizer.lenient Ethabi.Token.address Ethabi.Res.instMonad Ethabi.Token.fixedBytes Ethabi.Mediate.tails._f Ethabi.ReadSt.subtypes Ethabi.Mediate.prefixed Ethabi.ParamType.casesOn Ethabi.padBool Ethabi.readFuel._f Ethabi.Mediate.assemble.match_1 Ethabi.beBytes._f Ethabi.readLoop.match_1 Ethabi.Spec.outside Ethabi.U256.toWord Ethabi.Command Ethabi.Mediate.rec Ethabi.Token.below Ethabi.Mediate.prefixedArrayWithLength Ethabi.ParamType Ethabi.Spec.partOf Ethabi.Spec.quoted Ethabi.Spec.spans._f Ethabi.Tokenizer Ethabi.indexSub Ethabi.Token Ethabi.beBytes Ethabi.Token.rec Ethabi.encode Ethabi.Command.decodeFunction Ethabi.Spec.outside.match_1 Ethabi.isDigit Ethabi.Command.encodeParams Ethabi.ParamType.brecOn.go Ethabi.parseUsize Ethabi.readLoop Ethabi.padBool._proof_1 Ethabi.Spec.bracketed Ethabi.Token.uint Ethabi.Spec.numeral.match_1 Ethabi.ParamType.bytes Ethabi.Err Ethabi.Mediate.brecOn.go Ethabi.readLoop._f Ethabi.Spec.spans.match_1 Ethabi.Str Ethabi.Token.rec_1 Ethabi.Spec.denotes Ethabi.encodeTokens._f Ethabi.Spec.isFullHex Ethabi.flattenWords Ethabi.Props.PrintsHex Ethabi.trailing._f Ethabi.Mediate.brecOn_1 Ethabi.ReadSt.subtuples Ethabi.utf8 Ethabi.ReadSt.mk Ethabi.Tokenizer.strict Ethabi.Token.isDynamic._sparseCasesOn_1 Ethabi.Spec.denotesEach.match_1 Ethabi.readFuel.match_1 Ethabi.stripPlus._sparseCasesOn_1 Ethabi.Json Ethabi.Token.bool Ethabi.readOpen Ethabi.Token.fixedArray Ethabi.Mediate.tail.match_1 Ethabi.Mediate.assemble Ethabi.Word Ethabi.padChunk._proof_2 Ethabi.byteLen._f Ethabi.Spec.hexDigitAny.match_1 Ethabi.Mediate.casesOn Ethabi.trailing Ethabi.trailing.match_1 Ethabi.Spec.isCut Ethabi.Profile.rec Ethabi.Err.serdeJson Ethabi.Token.brecOn_1
c118_determines_decode_log Ethabi.asUsize Ethabi.Function Ethabi.ParamType.isDynamic.match_1 Ethabi.Spec.DenotesEach Ethabi.deString._sparseCasesOn_1 Ethabi.OpSt.mk Ethabi.Spec.typeNames._f Ethabi.Json.below_1 Ethabi.stripPlus Ethabi.mutabilityVariant Ethabi.deVec._f Ethabi.Profile Ethabi.Operation.fallback Ethabi.Event.signature Ethabi.Err.hex Ethabi.deParamFields Ethabi.Param.name Ethabi.Json.obj Ethabi.deComponents Ethabi.Event Ethabi.sliceFrom Ethabi.Json.str Ethabi.Spec.hexadecimal Ethabi.Res.rec Ethabi.HexReason.character Ethabi.Spec.DenotesMember Ethabi.stripPlus.match_1 Ethabi.ParamType.isDynamic Ethabi.deComponents._sparseCasesOn_1 Ethabi.Json.rec Ethabi.decodeParam.match_1 Ethabi.Spec.hexFails Ethabi.arrayNum Ethabi.ParamType.uint Ethabi.pushEntry Ethabi.deOperationSeq Ethabi.startsWith Ethabi.ParamType.rec Ethabi.Spec.DenotesOperation.eventArray Ethabi.Spec.hexText Ethabi.deStateMutability._sparseCasesOn_4 Ethabi.Spec.AroundTuple Ethabi.instReprProfile.repr.match_1 Ethabi.StateMutability.rec Ethabi.Mode Ethabi.FieldSt.internalType Ethabi.decodeParams._f Ethabi.Spec.AroundTuple.tuple Ethabi.deOperationSeq._sparseCasesOn_1 Ethabi.Param.kind Ethabi.second4 Ethabi.Props.LoadFails Ethabi.longSignature Ethabi.splitAtByte._f Ethabi.mapIndex Ethabi.read Ethabi.Reason.notOpened Ethabi.deContract Ethabi.deArr.match_1 Ethabi.Token.array Ethabi.RawLog.data Ethabi.ParamType.isDynamic._f Ethabi.Props.PicksEvent Ethabi.deTupleParams.match_1 Ethabi.ParamType.rec_1 Ethabi.ParamType.isEmptyBytesValidEncoding Ethabi.Props.RefusesEvent.unknownName Ethabi.Token.tuple Ethabi.EventParam.name Ethabi.Event.parseLog Ethabi.Event.checkSignature.match_1 Ethabi.Json.arr Ethabi.writeAll.match_1 Ethabi.deEventSeq Ethabi.StateMutability.nonPayable Ethabi.RawLog Ethabi.Spec.DenotesType.tuple Ethabi.Spec.KnownKeys Ethabi.indexVec Ethabi.Param.mk Ethabi.ReadSt Ethabi.replacementChar Ethabi.Address Ethabi.Json.below Ethabi.readLoop.match_3 Ethabi.TupleParam.mk Ethabi.lit Ethabi.Spec.DenotesEventParam Ethabi.deOperations.match_1 Ethabi.peek32 Ethabi.Spec.DenotesTail.both Ethabi.Reason Ethabi.Reason.unknownFunction Ethabi.Contract.add Ethabi.Json.bool Ethabi.LogParam Ethabi.Reason.unknownEvent Ethabi.Spec.bytesIn Ethabi.Mode.rec Ethabi.deArr._sparseCasesOn_1 Ethabi.Contract.receive Ethabi.splitTag.match_3 Ethabi.Spec.mutabilityWord.match_1 Ethabi.U256 Ethabi.Json.ctorIdx Ethabi.indexVec.match_1 Ethabi.Contract.add.match_1 Ethabi.FieldSt Ethabi.TupleParam.name Ethabi.Err.other Ethabi.logParams._f Ethabi.Operation.event Ethabi.Command.decodeLog Ethabi.Err.invalidData Ethabi.deParamFields._f Ethabi.Operation.ctorIdx Ethabi.Function.constant Ethabi.Spec.entriesOf Ethabi.Spec.DenotesEach.nil Ethabi.Spec.WithMembers.tuple Ethabi.readComma Ethabi.fromUtf8Lossy._f Ethabi.readElementary Ethabi.utf8Char Ethabi.Spec.typeName._f Ethabi.RawLog.topics Ethabi.usizeAdd Ethabi.ReadSt.nested Ethabi.Mode.buffered Ethabi.deName Ethabi.Json.num Ethabi.takeBytes Ethabi.Event.paramsNames Ethabi.Spec.DefaultBool Ethabi.Err.invalidName Ethabi.ParamType.fixedArray Ethabi.Props.textHash Ethabi.Reason.hex Ethabi.readFuel Ethabi.deOperations Ethabi.logParams.match_1 Ethabi.required Ethabi.Props.RefusesEvent.ambiguous Ethabi.Spec.numeral._f Ethabi.Operation.function Ethabi.decodeLoop.match_1 Ethabi.Res.bind Ethabi.Spec.DenotesMembers Ethabi.Param.internalType Ethabi.Param Ethabi.Res Ethabi.Spec.DenotesOperation.functionArray Ethabi.Token.string Ethabi.machine Ethabi.setTupleComponents.match_1 Ethabi.Profile.casesOn Ethabi.Operation Ethabi.deVec.match_1 Ethabi.deFunctionSeq.match_3 Ethabi.Spec.WordJson Ethabi.Err.casesOn Ethabi.OpSt.constant Ethabi.FieldSt.kind Ethabi.Res.panic Ethabi.strSlice Ethabi.ReadSt.lastItem Ethabi.ParamType.fixedBytes Ethabi.Token.int Ethabi.ParamType.int Ethabi.Profile.release Ethabi.StateMutability.pure Ethabi.Event.anonymous Ethabi.ParamType.below Ethabi.OpSt Ethabi.ParamType.tuple Ethabi.copyWord Ethabi.endOfSeq Ethabi.Spec.OptionalString.match_1 Ethabi.Reason.underflow Ethabi.readClose Ethabi.Token.bytes Ethabi.pushEntry._f Ethabi.strSlice.match_1 Ethabi.Spec.WithMembers Ethabi.Reason.invalidName Ethabi.Operation.receive Ethabi.splitAtByte Ethabi.deString Ethabi.Spec.DenotesParam Ethabi.Spec.WithMembers.fixedArray Ethabi.deStateMutability.match_1 Ethabi.deTupleFields.match_1 Ethabi.Spec.WordJson.object Ethabi.ParamType.bool Ethabi.ParamType.isDynamic._sparseCasesOn_1 Ethabi.convertTopicParamType.match_1 Ethabi.innerTuple._sparseCasesOn_1 Ethabi.Err.utf8 Ethabi.ParamType.array Ethabi.Json.rec_2 Ethabi.ParamType.below_1 Ethabi.FieldSt.name Ethabi.fromUtf8Lossy.match_3 Ethabi.Spec.DenotesMembers.nil Ethabi.ParamType.brecOn Ethabi.extendInner._f Ethabi.Spec.mutabilityWord Ethabi.OpSt.stateMutability Ethabi.Function.outputs Ethabi.ParamType.string Ethabi.deEventOpFields._f Ethabi.digitsVal Ethabi.Spec.numeral Ethabi.Reason.decLength Ethabi.TupleParam Ethabi.StateMutability Ethabi.Log.mk Ethabi.deComponents.match_1 Ethabi.Contract.fallback Ethabi.Props.declaredEvents._sparseCasesOn_1 Ethabi.Spec.hexDigitAny Ethabi.Spec.elementText.match_1 Ethabi.deVec Ethabi.deKind Ethabi.Spec.DenotesOperation.event Ethabi.second3 Ethabi.deString.match_1 Ethabi.readStep Ethabi.ReadSt.topOpen Ethabi.Spec.numeral._sparseCasesOn_1 Ethabi.deEvent Ethabi.Err.rec Ethabi.deBool Ethabi.wordAddress._proof_1 Ethabi.RawLog.mk Ethabi.Spec.DenotesOperation.receive Ethabi.fromUtf8Lossy Ethabi.Operation.rec Ethabi.deEventSeq.match_1 Ethabi.OpSt.anonymous Ethabi.decode Ethabi.deTupleFields._f Ethabi.required.match_1 Ethabi.byteLen Ethabi.Event.paramTypes Ethabi.Spec.DenotesOperation.receiveArray Ethabi.OpSt.eventInputs Ethabi.fromUtf8Lossy.match_1 Ethabi.Reason.ambiguous Ethabi.Event.mk Ethabi.decodeLoop.match_5 Ethabi.deBool.match_1 Ethabi.Err.ctorIdx Ethabi.Err.parseInt Ethabi.FieldSt.components Ethabi.Spec.DenotesOperation.constructor Ethabi.Spec.DenotesTail Ethabi.natText Ethabi.Function.mk Ethabi.Spec.typeNames.match_1 Ethabi.deConstructorSeq Ethabi.writeAll._f Ethabi.peek Ethabi.convertTopicParamType Ethabi.Res.casesOn Ethabi.FieldSt.indexed Ethabi.sanitizeName Ethabi.deTupleParam._f Ethabi.write Ethabi.Function.stateMutability Ethabi.strBytes Ethabi.Res.bind.match_1 Ethabi.Json.brecOn Ethabi.Contract.events Ethabi.Props.PicksEvent.bySignature Ethabi.Mode.direct Ethabi.utf8CharWidth Ethabi.decodeParams.match_1 Ethabi.deStateMutability Ethabi.ParamType.address Ethabi.Spec.isHexDigit Ethabi.deFunctionFields.match_1 Ethabi.EventParam.indexed Ethabi.logParams Ethabi.Bytes Ethabi.pushEntry.match_1 Ethabi.finishTupleParam Ethabi.innerTuple._f Ethabi.Reason.invalidData Ethabi.Props.declaredEvents Ethabi.extendInner Ethabi.innerTuple Ethabi.Told.ok Ethabi.Mode.casesOn Ethabi.deConstructor Ethabi.splitAtByte.match_1 Ethabi.Spec.AroundTuple.array Ethabi.nextElement Ethabi.Res.err Ethabi.Function.inputs Ethabi.deStateMutability._sparseCasesOn_3 Ethabi.Operation.casesOn Ethabi.deTupleParam._sparseCasesOn_1 Ethabi.Spec.DenotesName Ethabi.deConstructorFields Ethabi.Command.encodeFunction Ethabi.Res.ok Ethabi.TupleParam.internalType Ethabi.Constructor.mk Ethabi.Spec.DenotesType Ethabi.Spec.DenotesTail.none Ethabi.join.match_1 Ethabi.Spec.DenotesOperation Ethabi.deOperation._sparseCasesOn_5 Ethabi.deTupleFields.match_3 Ethabi.mapIndex.match_1 Ethabi.deComponents._f Ethabi.byteLen.match_1 Ethabi.fromUtf8Lossy.match_5 Ethabi.U256.ofWord Ethabi.deFunction Ethabi.EventParam Ethabi.deStateMutability._sparseCasesOn_1 Ethabi.beNat Ethabi.Json.null Ethabi.Told.err Ethabi.Told.panic Ethabi.deParam Ethabi.Function.name Ethabi.deKind.match_1 Ethabi.Profile.debug Ethabi.wordLow Ethabi.decodeParams Ethabi.deFunctionFields Ethabi.Spec.DenotesOperation.function Ethabi.Command.decodeParams Ethabi.Spec.Once Ethabi.Contract.functions Ethabi.HexReason Ethabi.Token.address Ethabi.StateMutability.casesOn Ethabi.Res.instMonad Ethabi.deEventFields Ethabi.Token.fixedBytes Ethabi.asBool Ethabi.innerTuple.match_1 Ethabi.Spec.DenotesOperation.constructorArray Ethabi.Spec.DenotesType.plain Ethabi.ParamType.usizeOkAll.match_1 Ethabi.Event.checkSignature Ethabi.StateMutability.payable Ethabi.decodeLoop._f Ethabi.Spec.Absent Ethabi.Spec.DenotesTail.constant Ethabi.ReadSt.subtypes Ethabi.deEventFields._f Ethabi.ParamType.casesOn Ethabi.decodeLoop.match_3 Ethabi.deFunctionSeq.match_7 Ethabi.ParamType.brecOn_1 Ethabi.readFuel._f Ethabi.deConstructorFields._f Ethabi.Reason.ofErr Ethabi.Spec.DenotesEach.cons Ethabi.readLoop.match_1 Ethabi.Reason.ofErr.match_1 Ethabi.Command Ethabi.Reason.ofErr._sparseCasesOn_1 Ethabi.Spec.signature Ethabi.Contract.constructor Ethabi.join._sparseCasesOn_1 Ethabi.ParamType Ethabi.decodeLoop Ethabi.splitTag._f Ethabi.Reason.overflow Ethabi.ParamType.ctorIdx Ethabi.Constructor Ethabi.join Ethabi.Spec.WordJson.string Ethabi.writeForAbi.match_1 Ethabi.indexSub Ethabi.Token Ethabi.isCont Ethabi.Command.decodeFunction Ethabi.Json.below_3 Ethabi.Told Ethabi.convertTopicParamType._sparseCasesOn_1 Ethabi.isDigit Ethabi.deStateMutability._sparseCasesOn_2 Ethabi.Command.encodeParams Ethabi.ParamType.brecOn.go Ethabi.deOperations._f Ethabi.parseUsize Ethabi.TupleParam.kind Ethabi.readLoop Ethabi.LogParam.mk Ethabi.Token.uint Ethabi.Spec.numeral.match_1 Ethabi.deOperation Ethabi.ParamType.bytes Ethabi.Err Ethabi.ParamType.isEmptyBytesValidEncoding.match_1 Ethabi.Contract.mk Ethabi.ParamType.anyDynamic._f Ethabi.Spec.typeNames Ethabi.readLoop._f Ethabi.splitTag Ethabi.slice Ethabi.HexReason.odd Ethabi.Str Ethabi.writeForAbi._f Ethabi.Props.RefusesEvent.unknownInSignature Ethabi.EventParam.kind Ethabi.deOperation.match_5 Ethabi.Props.RefusesEvent.otherSignature Ethabi.deFunctionFields._f Ethabi.Reason.plainHex Ethabi.Json.casesOn Ethabi.setTupleComponents Ethabi.Json.rec_3 Ethabi.Props.PicksEvent.byName Ethabi.Operation.constructor Ethabi.Spec.DenotesMutability Ethabi.trailing._f Ethabi.FieldSt.mk Ethabi.Props.declaredEvents.match_1 Ethabi.Json.brecOn.go Ethabi.signatureText Ethabi.Spec.AroundTuple.fixedArray Ethabi.ReadSt.subtuples Ethabi.Event.inputs Ethabi.deFunctionSeq Ethabi.Props.RefusesEvent Ethabi.Spec.WithMembers.array Ethabi.utf8 Ethabi.Reason.decCharacter Ethabi.Props.Declares Ethabi.ReadSt.mk Ethabi.Contract Ethabi.writeForAbi Ethabi.ParamType.anyDynamic Ethabi.Reason.foreign Ethabi.Json.rec_1 Ethabi.deEventOpFields Ethabi.wordAddress Ethabi.Event.indexedParams Ethabi.ParamType.brecOn_1.go Ethabi.deFunctionSeq.match_5 Ethabi.StateMutability.view Ethabi.OpSt.name Ethabi.Json.below_2 Ethabi.fromUtf8Lossy.match_7 Ethabi.join._f Ethabi.readFuel.match_1 Ethabi.stripPlus._sparseCasesOn_1 Ethabi.Json Ethabi.Token.bool Ethabi.Spec.DenotesOperation.fallback Ethabi.deOperation.match_1 Ethabi.readOpen Ethabi.EventParam.mk Ethabi.deOperationSeq.match_1 Ethabi.Log Ethabi.deEventParam Ethabi.Token.fixedArray Ethabi.Props.eventText Ethabi.Spec.DenotesMembers.cons Ethabi.splitTag.match_1 Ethabi.Word Ethabi.OpSt.inputs Ethabi.byteLen._f Ethabi.deBool._sparseCasesOn_1 Ethabi.OpSt.outputs Ethabi.Spec.hexDigitAny.match_1 Ethabi.deTupleParam.match_1 Ethabi.ParamType.isEmptyBytesValidEncoding._sparseCasesOn_1 Ethabi.Spec.DenotesOperation.fallbackArray Ethabi.Spec.OptionalString Ethabi.deFunctionSeq.match_1 Ethabi.Event.name Ethabi.deArr Ethabi.Spec.CutAtParen Ethabi.deOperation.match_3 Ethabi.trailing Ethabi.emptyDataMsg Ethabi.trailing.match_1 Ethabi.Spec.DenotesMember.mk Ethabi.decodeParam._f Ethabi.Spec.DenotesType.unused Ethabi.Profile.rec Ethabi.Err.serdeJson Ethabi.deTupleParams._f Ethabi.Spec.typeName.match_1
c96_determines Ethabi.Names.marked.match_1 Ethabi.Names.identifier Ethabi.Names.snakeText.match_1 Ethabi.Names.snakeText Ethabi.Names.marked Ethabi.Names.marked._f Ethabi.Names.camelText Ethabi.Str Ethabi.Names.startsWord
c85_determines_decode_function Ethabi.Function Ethabi.Spec.DenotesEach Ethabi.Spec.typeNames._f Ethabi.stripPlus Ethabi.Profile Ethabi.Operation.fallback Ethabi.Props.PicksFunction Ethabi.Err.hex Ethabi.Param.name Ethabi.Json.obj Ethabi.Event Ethabi.Json.str Ethabi.Spec.hexadecimal Ethabi.Props.PrintsLines Ethabi.Res.rec Ethabi.Spec.DenotesMember Ethabi.stripPlus.match_1 Ethabi.Spec.dynamicAny.match_1 Ethabi.arrayNum Ethabi.ParamType.uint Ethabi.startsWith Ethabi.ParamType.rec Ethabi.Spec.DenotesOperation.eventArray Ethabi.Spec.hexText Ethabi.Spec.AroundTuple Ethabi.StateMutability.rec Ethabi.Mode Ethabi.Spec.AroundTuple.tuple Ethabi.Param.kind Ethabi.second4 Ethabi.splitAtByte._f Ethabi.Spec.smallAt Ethabi.read Ethabi.Token.array Ethabi.Token.displayAll.match_1 Ethabi.ParamType.rec_1 Ethabi.Spec.staticSize._sparseCasesOn_1 Ethabi.Spec.headWidth Ethabi.Token.tuple Ethabi.EventParam.name Ethabi.Spec.zeroTypes Ethabi.Json.arr Ethabi.StateMutability.nonPayable Ethabi.Spec.dynamicAny Ethabi.Spec.DenotesType.tuple Ethabi.Spec.KnownKeys Ethabi.Token.displayAll._f Ethabi.indexVec Ethabi.Param.mk Ethabi.ReadSt Ethabi.replacementChar Ethabi.Address Ethabi.readLoop.match_3 Ethabi.TupleParam.mk Ethabi.lit Ethabi.Spec.dynamicAny._f Ethabi.Spec.DenotesEventParam Ethabi.Spec.DenotesTail.both Ethabi.Json.bool Ethabi.Spec.mutabilityWord.match_1 Ethabi.U256 Ethabi.indexVec.match_1 Ethabi.TupleParam.name Ethabi.Err.other Ethabi.Operation.event Ethabi.Command.decodeLog Ethabi.Err.invalidData Ethabi.Operation.ctorIdx Ethabi.Function.constant Ethabi.Spec.entriesOf Ethabi.Spec.DenotesEach.nil Ethabi.Spec.WithMembers.tuple Ethabi.readComma Ethabi.fromUtf8Lossy._f Ethabi.readElementary Ethabi.utf8Char Ethabi.Spec.typeName._f Ethabi.Spec.narrowAll Ethabi.ReadSt.nested Ethabi.Mode.buffered Ethabi.Json.num Ethabi.Spec.DefaultBool Ethabi.Err.invalidName Ethabi.ParamType.fixedArray Ethabi.Props.PicksFunction.byName Ethabi.readFuel Ethabi.Spec.numeral._f Ethabi.Operation.function Ethabi.Res.bind Ethabi.Spec.dynamic._f Ethabi.Spec.DenotesMembers Ethabi.Param.internalType Ethabi.Param Ethabi.Res Ethabi.Spec.DenotesOperation.functionArray Ethabi.Spec.staticSize.match_1 Ethabi.Token.string Ethabi.Operation Ethabi.Spec.WordJson Ethabi.Res.panic Ethabi.Spec.narrowAll._f Ethabi.strSlice Ethabi.ReadSt.lastItem Ethabi.ParamType.fixedBytes Ethabi.Token.int Ethabi.ParamType.int Ethabi.Profile.release Ethabi.StateMutability.pure Ethabi.Props.functionText Ethabi.Event.anonymous Ethabi.ParamType.below Ethabi.ParamType.tuple Ethabi.Props.declaredFunctions.match_1 Ethabi.Spec.OptionalString.match_1 Ethabi.readClose Ethabi.Token.bytes Ethabi.hexDigit Ethabi.Token.display._f Ethabi.strSlice.match_1 Ethabi.Token.display.match_1 Ethabi.Spec.WithMembers Ethabi.Operation.receive Ethabi.splitAtByte Ethabi.Spec.staticSize Ethabi.Spec.DenotesParam Ethabi.Spec.numberAt Ethabi.Spec.WithMembers.fixedArray Ethabi.Spec.WordJson.object Ethabi.ParamType.bool Ethabi.Spec.dynamic.match_1 Ethabi.Token.below_1 Ethabi.Err.utf8 Ethabi.ParamType.array Ethabi.ParamType.below_1 Ethabi.fromUtf8Lossy.match_3 Ethabi.Spec.DenotesMembers.nil Ethabi.ParamType.brecOn Ethabi.Spec.mutabilityWord Ethabi.Function.outputs Ethabi.ParamType.string Ethabi.digitsVal Ethabi.Spec.numeral Ethabi.TupleParam Ethabi.StateMutability Ethabi.Spec.staticSize._f Ethabi.Spec.hexDigitAny Ethabi.Spec.elementText.match_1 Ethabi.Spec.DenotesOperation.event Ethabi.second3 Ethabi.readStep Ethabi.ReadSt.topOpen Ethabi.Spec.numeral._sparseCasesOn_1 Ethabi.Spec.DenotesOperation.receive Ethabi.fromUtf8Lossy Ethabi.Operation.rec Ethabi.Token.display Ethabi.byteLen Ethabi.Spec.DenotesOperation.receiveArray Ethabi.fromUtf8Lossy.match_1 Ethabi.Event.mk Ethabi.Err.parseInt Ethabi.Spec.DenotesOperation.constructor Ethabi.Spec.DenotesTail Ethabi.Function.mk Ethabi.Token.casesOn Ethabi.hexByte Ethabi.Spec.typeNames.match_1 Ethabi.Spec.spaced Ethabi.Res.casesOn Ethabi.Function.stateMutability Ethabi.Res.bind.match_1 Ethabi.Mode.direct Ethabi.utf8CharWidth Ethabi.hexNat Ethabi.Spec.readsAll Ethabi.ParamType.address Ethabi.EventParam.indexed Ethabi.Bytes Ethabi.Token.brecOn Ethabi.splitAtByte.match_1 Ethabi.Spec.AroundTuple.array Ethabi.Res.err Ethabi.Function.inputs Ethabi.Operation.casesOn Ethabi.Props.declaredFunctions Ethabi.Spec.DenotesName Ethabi.Spec.readsAll.match_1 Ethabi.Command.encodeFunction Ethabi.Res.ok Ethabi.TupleParam.internalType Ethabi.Constructor.mk Ethabi.Spec.DenotesType Ethabi.Spec.DenotesTail.none Ethabi.Spec.staticSizeAll._f Ethabi.join.match_1 Ethabi.Spec.DenotesOperation Ethabi.Spec.typeName Ethabi.byteLen.match_1 Ethabi.fromUtf8Lossy.match_5 Ethabi.EventParam Ethabi.Spec.dynamic Ethabi.beNat Ethabi.Json.null Ethabi.Function.name Ethabi.Profile.debug Ethabi.Spec.DenotesOperation.function Ethabi.Command.decodeParams Ethabi.Spec.reads.match_1 Ethabi.Spec.Once Ethabi.Token.address Ethabi.StateMutability.casesOn Ethabi.Res.instMonad Ethabi.Token.fixedBytes Ethabi.Spec.DenotesOperation.constructorArray Ethabi.Spec.DenotesType.plain Ethabi.StateMutability.payable Ethabi.Spec.Absent Ethabi.Spec.DenotesTail.constant Ethabi.ReadSt.subtypes Ethabi.ParamType.casesOn Ethabi.ParamType.brecOn_1 Ethabi.readFuel._f Ethabi.Spec.DenotesEach.cons Ethabi.readLoop.match_1 Ethabi.Spec.narrow._f Ethabi.Command Ethabi.Spec.signature Ethabi.join._sparseCasesOn_1 Ethabi.Token.below Ethabi.ParamType Ethabi.ParamType.ctorIdx Ethabi.Constructor Ethabi.Spec.payloadAt Ethabi.join Ethabi.Spec.WordJson.string Ethabi.indexSub Ethabi.Token Ethabi.isCont Ethabi.Token.rec Ethabi.Command.decodeFunction Ethabi.isDigit Ethabi.Command.encodeParams Ethabi.ParamType.brecOn.go Ethabi.parseUsize Ethabi.TupleParam.kind Ethabi.readLoop Ethabi.Token.uint Ethabi.Spec.numeral.match_1 Ethabi.ParamType.bytes Ethabi.Err Ethabi.Spec.typeNames Ethabi.readLoop._f Ethabi.Props.declaredFunctions._sparseCasesOn_1 Ethabi.Str Ethabi.EventParam.kind Ethabi.Props.PicksFunction.bySignature Ethabi.Token.rec_1 Ethabi.Operation.constructor Ethabi.Spec.readsAll._f Ethabi.Spec.DenotesMutability Ethabi.trailing._f Ethabi.Spec.AroundTuple.fixedArray Ethabi.ReadSt.subtuples Ethabi.Event.inputs Ethabi.Spec.WithMembers.array Ethabi.Props.Declares Ethabi.ReadSt.mk Ethabi.hexEncode Ethabi.Spec.reads._f Ethabi.ParamType.brecOn_1.go Ethabi.StateMutability.view Ethabi.Token.brecOn.go Ethabi.fromUtf8Lossy.match_7 Ethabi.join._f Ethabi.readFuel.match_1 Ethabi.stripPlus._sparseCasesOn_1 Ethabi.Json Ethabi.Token.bool Ethabi.Spec.DenotesOperation.fallback Ethabi.readOpen Ethabi.EventParam.mk Ethabi.Token.fixedArray Ethabi.Spec.DenotesMembers.cons Ethabi.Spec.narrow._sparseCasesOn_1 Ethabi.Word Ethabi.byteLen._f Ethabi.Spec.hexDigitAny.match_1 Ethabi.Spec.DenotesOperation.fallbackArray Ethabi.Spec.OptionalString Ethabi.Event.name Ethabi.Spec.CutAtParen Ethabi.trailing Ethabi.Spec.word Ethabi.trailing.match_1 Ethabi.Spec.narrow.match_1 Ethabi.Spec.DenotesMember.mk Ethabi.Spec.DenotesType.unused Ethabi.Err.serdeJson Ethabi.Spec.typeName.match_1
c90_determines_operation Ethabi.Function Ethabi.Spec.DenotesEach Ethabi.stripPlus Ethabi.Operation.fallback Ethabi.Err.hex Ethabi.Param.name Ethabi.Json.obj Ethabi.Spec.ParamFine Ethabi.Event Ethabi.Json.str Ethabi.Res.rec Ethabi.Spec.DenotesMember Ethabi.stripPlus.match_1 Ethabi.arrayNum Ethabi.ParamType.uint Ethabi.Spec.CrashesOperation.event Ethabi.startsWith Ethabi.Spec.CrashesEventParam.components Ethabi.Spec.AroundTuple Ethabi.StateMutability.rec Ethabi.Mode Ethabi.Spec.AroundTuple.tuple Ethabi.Param.kind Ethabi.splitAtByte._f Ethabi.read Ethabi.EventParam.name Ethabi.Json.arr Ethabi.StateMutability.nonPayable Ethabi.Spec.DenotesType.tuple Ethabi.Spec.KnownKeys Ethabi.indexVec Ethabi.Param.mk Ethabi.ReadSt Ethabi.readLoop.match_3 Ethabi.TupleParam.mk Ethabi.lit Ethabi.Spec.DenotesEventParam Ethabi.Json.bool Ethabi.Spec.mutabilityWord.match_1 Ethabi.indexVec.match_1 Ethabi.TupleParam.name Ethabi.Err.other Ethabi.Spec.CrashesParam.components Ethabi.Operation.event Ethabi.Err.invalidData Ethabi.Spec.entriesOf Ethabi.Spec.DenotesEach.nil Ethabi.Spec.WithMembers.tuple Ethabi.readComma Ethabi.readElementary Ethabi.Spec.CrashesOperation.function Ethabi.utf8Char Ethabi.Spec.CrashesEventParam Ethabi.ReadSt.nested Ethabi.Mode.buffered Ethabi.Json.num Ethabi.Spec.DefaultBool Ethabi.Err.invalidName Ethabi.ParamType.fixedArray Ethabi.readFuel Ethabi.Operation.function Ethabi.Res.bind Ethabi.Spec.DenotesMembers Ethabi.Param.internalType Ethabi.Param Ethabi.Res Ethabi.Operation Ethabi.Spec.WordJson Ethabi.Res.panic Ethabi.strSlice Ethabi.ReadSt.lastItem Ethabi.ParamType.fixedBytes Ethabi.ParamType.int Ethabi.StateMutability.pure Ethabi.Spec.CrashesAt Ethabi.ParamType.tuple Ethabi.Spec.OptionalString.match_1 Ethabi.readClose Ethabi.Spec.ArrayFine Ethabi.strSlice.match_1 Ethabi.Spec.WithMembers Ethabi.Operation.receive Ethabi.Spec.CrashesOperation.eventArray Ethabi.splitAtByte Ethabi.Spec.DenotesParam Ethabi.Spec.WithMembers.fixedArray Ethabi.Spec.WordJson.object Ethabi.ParamType.bool Ethabi.Err.utf8 Ethabi.ParamType.array Ethabi.Spec.DenotesMembers.nil Ethabi.Spec.mutabilityWord Ethabi.Spec.FunctionFine Ethabi.ParamType.string Ethabi.digitsVal Ethabi.TupleParam Ethabi.StateMutability Ethabi.Spec.CrashesParam.type Ethabi.readStep Ethabi.ReadSt.topOpen Ethabi.Spec.CrashesOperation.functionArrayInputs Ethabi.Spec.CrashesOperation.functionArrayOutputs Ethabi.byteLen Ethabi.Spec.CrashesOperation.constructorArray Ethabi.Event.mk Ethabi.Err.parseInt Ethabi.Function.mk Ethabi.Res.casesOn Ethabi.Res.bind.match_1 Ethabi.Mode.direct Ethabi.Spec.CrashesEventParam.type Ethabi.Spec.CrashesOperation.constructor Ethabi.ParamType.address Ethabi.EventParam.indexed Ethabi.Bytes Ethabi.splitAtByte.match_1 Ethabi.Spec.AroundTuple.array Ethabi.Res.err Ethabi.Res.ok Ethabi.TupleParam.internalType Ethabi.Constructor.mk Ethabi.Spec.DenotesType Ethabi.byteLen.match_1 Ethabi.EventParam Ethabi.Json.null Ethabi.Spec.ComponentsFine Ethabi.Spec.Once Ethabi.StateMutability.casesOn Ethabi.Res.instMonad Ethabi.Spec.DenotesType.plain Ethabi.StateMutability.payable Ethabi.Spec.Absent Ethabi.ReadSt.subtypes Ethabi.readFuel._f Ethabi.Spec.EventParamFine Ethabi.Spec.DenotesEach.cons Ethabi.Spec.TypeFine Ethabi.readLoop.match_1 Ethabi.ParamType Ethabi.Constructor Ethabi.Spec.WordJson.string Ethabi.indexSub Ethabi.isDigit Ethabi.parseUsize Ethabi.TupleParam.kind Ethabi.readLoop Ethabi.ParamType.bytes Ethabi.Err Ethabi.readLoop._f Ethabi.Str Ethabi.EventParam.kind Ethabi.Operation.constructor Ethabi.Spec.DenotesMutability Ethabi.trailing._f Ethabi.Spec.AroundTuple.fixedArray Ethabi.ReadSt.subtuples Ethabi.Spec.WithMembers.array Ethabi.ReadSt.mk Ethabi.StateMutability.view Ethabi.Spec.CrashesOperation Ethabi.Spec.EventFine Ethabi.readFuel.match_1 Ethabi.stripPlus._sparseCasesOn_1 Ethabi.Json Ethabi.readOpen Ethabi.EventParam.mk Ethabi.Spec.DenotesMembers.cons Ethabi.Spec.CrashesParam Ethabi.byteLen._f Ethabi.Spec.OptionalString Ethabi.trailing Ethabi.trailing.match_1 Ethabi.Spec.DenotesMember.mk Ethabi.Spec.DenotesType.unused Ethabi.Err.serdeJson
c105_determines Ethabi.Function Ethabi.Spec.DenotesEach Ethabi.deString._sparseCasesOn_1 Ethabi.OpSt.mk Ethabi.Json.below_1 Ethabi.JsonGrammar.Begun.nil Ethabi.stripPlus Ethabi.mutabilityVariant Ethabi.deVec._f Ethabi.Operation.fallback Ethabi.Err.hex Ethabi.deParamFields Ethabi.Param.name Ethabi.JsonGrammar.Escaped.pair Ethabi.Json.obj Ethabi.Spec.ParamFine Ethabi.deComponents Ethabi.Event Ethabi.Json.str Ethabi.Res.rec Ethabi.Spec.DenotesMember Ethabi.stripPlus.match_1 Ethabi.JsonGrammar.Digits Ethabi.deComponents._sparseCasesOn_1 Ethabi.Json.rec Ethabi.arrayNum Ethabi.ParamType.uint Ethabi.pushEntry Ethabi.deOperationSeq Ethabi.Spec.CrashesOperation.event Ethabi.startsWith Ethabi.ParamType.rec Ethabi.Spec.DenotesOperation.eventArray Ethabi.Spec.CrashesEventParam.components Ethabi.deStateMutability._sparseCasesOn_4 Ethabi.Spec.AroundTuple Ethabi.StateMutability.rec Ethabi.Mode Ethabi.FieldSt.internalType Ethabi.Spec.AroundTuple.tuple Ethabi.JsonGrammar.Escaped.code Ethabi.deOperationSeq._sparseCasesOn_1 Ethabi.Param.kind Ethabi.splitAtByte._f Ethabi.read Ethabi.deContract Ethabi.deArr.match_1 Ethabi.deTupleParams.match_1 Ethabi.ParamType.rec_1 Ethabi.EventParam.name Ethabi.Json.arr Ethabi.deEventSeq Ethabi.StateMutability.nonPayable Ethabi.Spec.DenotesType.tuple Ethabi.Spec.KnownKeys Ethabi.indexVec Ethabi.Param.mk Ethabi.ReadSt Ethabi.Json.below Ethabi.readLoop.match_3 Ethabi.TupleParam.mk Ethabi.lit Ethabi.Spec.DenotesEventParam Ethabi.JsonGrammar.Entries Ethabi.deOperations.match_1 Ethabi.Spec.DenotesTail.both Ethabi.Contract.add Ethabi.Json.bool Ethabi.Mode.rec Ethabi.deArr._sparseCasesOn_1 Ethabi.Contract.receive Ethabi.splitTag.match_3 Ethabi.Spec.mutabilityWord.match_1 Ethabi.Json.ctorIdx Ethabi.indexVec.match_1 Ethabi.JsonGrammar.HexDigit Ethabi.Contract.add.match_1 Ethabi.FieldSt Ethabi.TupleParam.name Ethabi.Err.other Ethabi.Spec.CrashesParam.components Ethabi.Operation.event Ethabi.Err.invalidData Ethabi.deParamFields._f Ethabi.JsonGrammar.Hex4 Ethabi.Function.constant Ethabi.Spec.entriesOf Ethabi.Spec.DenotesEach.nil Ethabi.Spec.WithMembers.tuple Ethabi.readComma Ethabi.readElementary Ethabi.Spec.CrashesOperation.function Ethabi.JsonGrammar.Value.array Ethabi.utf8Char Ethabi.Spec.CrashesEventParam Ethabi.ReadSt.nested Ethabi.Mode.buffered Ethabi.deName Ethabi.Json.num Ethabi.Spec.DefaultBool Ethabi.Err.invalidName Ethabi.ParamType.fixedArray Ethabi.readFuel Ethabi.deOperations Ethabi.required Ethabi.JsonGrammar.Value.false Ethabi.Operation.function Ethabi.Res.bind Ethabi.Spec.DenotesMembers Ethabi.Param.internalType Ethabi.Param Ethabi.Res Ethabi.Spec.DenotesOperation.functionArray Ethabi.setTupleComponents.match_1 Ethabi.Operation Ethabi.deVec.match_1 Ethabi.deFunctionSeq.match_3 Ethabi.JsonGrammar.Exponent Ethabi.Spec.WordJson Ethabi.OpSt.constant Ethabi.FieldSt.kind Ethabi.Res.panic Ethabi.strSlice Ethabi.ReadSt.lastItem Ethabi.ParamType.fixedBytes Ethabi.ParamType.int Ethabi.JsonGrammar.Escaped.plain Ethabi.StateMutability.pure Ethabi.Spec.CrashesAt Ethabi.Event.anonymous Ethabi.ParamType.below Ethabi.OpSt Ethabi.ParamType.tuple Ethabi.endOfSeq Ethabi.JsonGrammar.Value.null Ethabi.Spec.OptionalString.match_1 Ethabi.readClose Ethabi.Spec.ArrayFine Ethabi.JsonGrammar.Number.minus Ethabi.pushEntry._f Ethabi.strSlice.match_1 Ethabi.Spec.WithMembers Ethabi.JsonGrammar.Value.true Ethabi.JsonGrammar.Chars Ethabi.Operation.receive Ethabi.Spec.CrashesOperation.eventArray Ethabi.splitAtByte Ethabi.deString Ethabi.Spec.DenotesParam Ethabi.Spec.WithMembers.fixedArray Ethabi.deStateMutability.match_1 Ethabi.deTupleFields.match_1 Ethabi.Spec.WordJson.object Ethabi.ParamType.bool Ethabi.innerTuple._sparseCasesOn_1 Ethabi.Err.utf8 Ethabi.ParamType.array Ethabi.Json.rec_2 Ethabi.ParamType.below_1 Ethabi.JsonGrammar.Number.plus Ethabi.FieldSt.name Ethabi.Spec.DenotesMembers.nil Ethabi.ParamType.brecOn Ethabi.extendInner._f Ethabi.Spec.mutabilityWord Ethabi.OpSt.stateMutability Ethabi.Function.outputs Ethabi.Spec.FunctionFine Ethabi.ParamType.string Ethabi.deEventOpFields._f Ethabi.digitsVal Ethabi.TupleParam Ethabi.StateMutability Ethabi.JsonGrammar.Items Ethabi.deComponents.match_1 Ethabi.Contract.fallback Ethabi.JsonGrammar.Value.noItems Ethabi.deVec Ethabi.Spec.CrashesParam.type Ethabi.deKind Ethabi.Spec.DenotesOperation.event Ethabi.deString.match_1 Ethabi.readStep Ethabi.JsonGrammar.Escaped.short Ethabi.ReadSt.topOpen Ethabi.deEvent Ethabi.deBool Ethabi.Spec.DenotesOperation.receive Ethabi.Spec.CrashesOperation.functionArrayInputs Ethabi.Operation.rec Ethabi.deEventSeq.match_1 Ethabi.OpSt.anonymous Ethabi.deTupleFields._f Ethabi.Spec.CrashesOperation.functionArrayOutputs Ethabi.required.match_1 Ethabi.byteLen Ethabi.JsonGrammar.Hex4.mk Ethabi.Spec.DenotesOperation.receiveArray Ethabi.OpSt.eventInputs Ethabi.Spec.CrashesOperation.constructorArray Ethabi.Event.mk Ethabi.deBool.match_1 Ethabi.Err.parseInt Ethabi.FieldSt.components Ethabi.Spec.DenotesOperation.constructor Ethabi.Spec.DenotesTail Ethabi.Function.mk Ethabi.deConstructorSeq Ethabi.Res.casesOn Ethabi.FieldSt.indexed Ethabi.sanitizeName Ethabi.deTupleParam._f Ethabi.Function.stateMutability Ethabi.JsonGrammar.Value.number Ethabi.Res.bind.match_1 Ethabi.Json.brecOn Ethabi.Contract.events Ethabi.Mode.direct Ethabi.deStateMutability Ethabi.Spec.CrashesEventParam.type Ethabi.Spec.CrashesOperation.constructor Ethabi.ParamType.address Ethabi.JsonGrammar.Items.more Ethabi.deFunctionFields.match_1 Ethabi.EventParam.indexed Ethabi.JsonGrammar.Whole Ethabi.Bytes Ethabi.pushEntry.match_1 Ethabi.finishTupleParam Ethabi.innerTuple._f Ethabi.extendInner Ethabi.innerTuple Ethabi.Mode.casesOn Ethabi.deConstructor Ethabi.splitAtByte.match_1 Ethabi.Spec.AroundTuple.array Ethabi.nextElement Ethabi.Res.err Ethabi.Function.inputs Ethabi.deStateMutability._sparseCasesOn_3 Ethabi.Operation.casesOn Ethabi.deTupleParam._sparseCasesOn_1 Ethabi.JsonGrammar.Blank Ethabi.JsonGrammar.Chars.nil Ethabi.Spec.DenotesName Ethabi.deConstructorFields Ethabi.Res.ok Ethabi.TupleParam.internalType Ethabi.Constructor.mk Ethabi.Spec.DenotesType Ethabi.Spec.DenotesTail.none Ethabi.Spec.DenotesOperation Ethabi.deOperation._sparseCasesOn_5 Ethabi.deTupleFields.match_3 Ethabi.deComponents._f Ethabi.byteLen.match_1 Ethabi.deFunction Ethabi.EventParam Ethabi.deStateMutability._sparseCasesOn_1 Ethabi.Json.null Ethabi.deParam Ethabi.Function.name Ethabi.deKind.match_1 Ethabi.JsonGrammar.Value.object Ethabi.Spec.ComponentsFine Ethabi.deFunctionFields Ethabi.Spec.DenotesOperation.function Ethabi.Spec.Once Ethabi.Contract.functions Ethabi.JsonGrammar.Escaped Ethabi.StateMutability.casesOn Ethabi.Res.instMonad Ethabi.deEventFields Ethabi.JsonGrammar.BreaksOffBytes Ethabi.JsonGrammar.Value Ethabi.innerTuple.match_1 Ethabi.Spec.DenotesOperation.constructorArray Ethabi.JsonGrammar.Encodes Ethabi.Spec.DenotesType.plain Ethabi.StateMutability.payable Ethabi.Spec.Absent Ethabi.Spec.DenotesTail.constant Ethabi.JsonGrammar.Value.noEntries Ethabi.ReadSt.subtypes Ethabi.deEventFields._f Ethabi.ParamType.casesOn Ethabi.deFunctionSeq.match_7 Ethabi.readFuel._f Ethabi.JsonGrammar.Number Ethabi.deConstructorFields._f Ethabi.Spec.EventParamFine Ethabi.Spec.DenotesEach.cons Ethabi.Spec.TypeFine Ethabi.JsonGrammar.Begun Ethabi.readLoop.match_1 Ethabi.Contract.constructor Ethabi.ParamType Ethabi.splitTag._f Ethabi.JsonGrammar.Entries.one Ethabi.ParamType.ctorIdx Ethabi.Constructor Ethabi.Props.CrashesBytes Ethabi.JsonGrammar.Holds Ethabi.Spec.WordJson.string Ethabi.indexSub Ethabi.Json.below_3 Ethabi.isDigit Ethabi.deStateMutability._sparseCasesOn_2 Ethabi.ParamType.brecOn.go Ethabi.deOperations._f Ethabi.parseUsize Ethabi.JsonGrammar.Value.string Ethabi.TupleParam.kind Ethabi.readLoop Ethabi.JsonGrammar.Fraction Ethabi.deOperation Ethabi.ParamType.bytes Ethabi.JsonGrammar.Items.one Ethabi.Err Ethabi.JsonGrammar.shorts Ethabi.Contract.mk Ethabi.readLoop._f Ethabi.splitTag Ethabi.Str Ethabi.EventParam.kind Ethabi.deOperation.match_5 Ethabi.deFunctionFields._f Ethabi.Json.casesOn Ethabi.JsonGrammar.Text Ethabi.setTupleComponents Ethabi.Json.rec_3 Ethabi.Operation.constructor Ethabi.Spec.DenotesMutability Ethabi.trailing._f Ethabi.FieldSt.mk Ethabi.Json.brecOn.go Ethabi.Spec.AroundTuple.fixedArray Ethabi.ReadSt.subtuples Ethabi.Event.inputs Ethabi.deFunctionSeq Ethabi.JsonGrammar.Begun.cons Ethabi.Spec.WithMembers.array Ethabi.ReadSt.mk Ethabi.Contract Ethabi.JsonGrammar.Entries.more Ethabi.Json.rec_1 Ethabi.deEventOpFields Ethabi.deFunctionSeq.match_5 Ethabi.StateMutability.view Ethabi.OpSt.name Ethabi.Spec.CrashesOperation Ethabi.Json.below_2 Ethabi.Spec.EventFine Ethabi.readFuel.match_1 Ethabi.stripPlus._sparseCasesOn_1 Ethabi.Json Ethabi.Spec.DenotesOperation.fallback Ethabi.deOperation.match_1 Ethabi.readOpen Ethabi.EventParam.mk Ethabi.deOperationSeq.match_1 Ethabi.deEventParam Ethabi.JsonGrammar.Chars.cons Ethabi.Spec.DenotesMembers.cons Ethabi.splitTag.match_1 Ethabi.Spec.CrashesParam Ethabi.OpSt.inputs Ethabi.byteLen._f Ethabi.deBool._sparseCasesOn_1 Ethabi.OpSt.outputs Ethabi.deTupleParam.match_1 Ethabi.Spec.DenotesOperation.fallbackArray Ethabi.Spec.OptionalString Ethabi.deFunctionSeq.match_1 Ethabi.Event.name Ethabi.deArr Ethabi.Spec.CutAtParen Ethabi.deOperation.match_3 Ethabi.trailing Ethabi.trailing.match_1 Ethabi.Spec.DenotesMember.mk Ethabi.Spec.DenotesType.unused Ethabi.Err.serdeJson Ethabi.deTupleParams._f
c90_determines_event_param Ethabi.stripPlus Ethabi.Err.hex Ethabi.Json.obj Ethabi.Spec.ParamFine Ethabi.Json.str Ethabi.Res.rec Ethabi.Spec.DenotesMember Ethabi.stripPlus.match_1 Ethabi.arrayNum Ethabi.ParamType.uint Ethabi.startsWith Ethabi.Spec.CrashesEventParam.components Ethabi.Spec.AroundTuple Ethabi.Mode Ethabi.Spec.AroundTuple.tuple Ethabi.splitAtByte._f Ethabi.read Ethabi.Json.arr Ethabi.Spec.DenotesType.tuple Ethabi.Spec.KnownKeys Ethabi.indexVec Ethabi.ReadSt Ethabi.readLoop.match_3 Ethabi.TupleParam.mk Ethabi.lit Ethabi.Json.bool Ethabi.indexVec.match_1 Ethabi.TupleParam.name Ethabi.Err.other Ethabi.Spec.CrashesParam.components Ethabi.Err.invalidData Ethabi.Spec.entriesOf Ethabi.Spec.WithMembers.tuple Ethabi.readComma Ethabi.readElementary Ethabi.utf8Char Ethabi.Spec.CrashesEventParam Ethabi.ReadSt.nested Ethabi.Mode.buffered Ethabi.Json.num Ethabi.Spec.DefaultBool Ethabi.Err.invalidName Ethabi.ParamType.fixedArray Ethabi.readFuel Ethabi.Res.bind Ethabi.Spec.DenotesMembers Ethabi.Res Ethabi.Res.panic Ethabi.strSlice Ethabi.ReadSt.lastItem Ethabi.ParamType.fixedBytes Ethabi.ParamType.int Ethabi.ParamType.tuple Ethabi.Spec.OptionalString.match_1 Ethabi.readClose Ethabi.strSlice.match_1 Ethabi.Spec.WithMembers Ethabi.splitAtByte Ethabi.Spec.WithMembers.fixedArray Ethabi.ParamType.bool Ethabi.Err.utf8 Ethabi.ParamType.array Ethabi.Spec.DenotesMembers.nil Ethabi.ParamType.string Ethabi.digitsVal Ethabi.TupleParam Ethabi.Spec.CrashesParam.type Ethabi.readStep Ethabi.ReadSt.topOpen Ethabi.byteLen Ethabi.Err.parseInt Ethabi.Res.casesOn Ethabi.Res.bind.match_1 Ethabi.Mode.direct Ethabi.Spec.CrashesEventParam.type Ethabi.ParamType.address Ethabi.Bytes Ethabi.splitAtByte.match_1 Ethabi.Spec.AroundTuple.array Ethabi.Res.err Ethabi.Res.ok Ethabi.TupleParam.internalType Ethabi.Spec.DenotesType Ethabi.byteLen.match_1 Ethabi.EventParam Ethabi.Json.null Ethabi.Spec.ComponentsFine Ethabi.Spec.Once Ethabi.Res.instMonad Ethabi.Spec.DenotesType.plain Ethabi.Spec.Absent Ethabi.ReadSt.subtypes Ethabi.readFuel._f Ethabi.Spec.EventParamFine Ethabi.Spec.TypeFine Ethabi.readLoop.match_1 Ethabi.ParamType Ethabi.indexSub Ethabi.isDigit Ethabi.parseUsize Ethabi.TupleParam.kind Ethabi.readLoop Ethabi.ParamType.bytes Ethabi.Err Ethabi.readLoop._f Ethabi.Str Ethabi.trailing._f Ethabi.Spec.AroundTuple.fixedArray Ethabi.ReadSt.subtuples Ethabi.Spec.WithMembers.array Ethabi.ReadSt.mk Ethabi.readFuel.match_1 Ethabi.stripPlus._sparseCasesOn_1 Ethabi.Json Ethabi.readOpen Ethabi.EventParam.mk Ethabi.Spec.DenotesMembers.cons Ethabi.Spec.CrashesParam Ethabi.byteLen._f Ethabi.Spec.OptionalString Ethabi.trailing Ethabi.trailing.match_1 Ethabi.Spec.DenotesMember.mk Ethabi.Spec.DenotesType.unused Ethabi.Err.serdeJson
c119_determines Ethabi.Token.array Ethabi.Token.tuple Ethabi.Address Ethabi.U256 Ethabi.Token.string Ethabi.Token.int Ethabi.Token.bytes Ethabi.Bytes Ethabi.Token.address Ethabi.Token.fixedBytes Ethabi.Token Ethabi.Token.uint Ethabi.Str Ethabi.Token.bool Ethabi.Token.fixedArray
c102_determines_derive Ethabi.Function Ethabi.Contract.allFunctions Ethabi.deString._sparseCasesOn_1 Ethabi.NestedMeta.lit Ethabi.OpSt.mk Ethabi.Json.below_1 Ethabi.generateConstructors Ethabi.stripPlus Ethabi.mutabilityVariant Ethabi.deVec._f Ethabi.topicNamesFrom Ethabi.Operation.fallback Ethabi.NestedMeta Ethabi.getOptions Ethabi.Err.hex Ethabi.deParamFields Ethabi.Param.name Ethabi.JsonGrammar.Escaped.pair Ethabi.Json.obj Ethabi.deComponents Ethabi.Event Ethabi.Json.str Ethabi.Res.rec Ethabi.stripPlus.match_1 Ethabi.JsonGrammar.Digits Ethabi.deComponents._sparseCasesOn_1 Ethabi.Json.rec Ethabi.strValueOfMetaItem._sparseCasesOn_1 Ethabi.arrayNum Ethabi.ParamType.uint Ethabi.pushEntry Ethabi.deOperationSeq Ethabi.startsWith Ethabi.ParamType.rec Ethabi.toSyntaxString Ethabi.deStateMutability._sparseCasesOn_4 Ethabi.implEthabiDerive Ethabi.toSyntaxString._f Ethabi.StateMutability.rec Ethabi.Mode Ethabi.FieldSt.internalType Ethabi.JsonGrammar.Escaped.code Ethabi.getOption Ethabi.deOperationSeq._sparseCasesOn_1 Ethabi.Param.kind Ethabi.splitAtByte._f Ethabi.Tok.index Ethabi.read Ethabi.deContract Ethabi.deArr.match_1 Ethabi.Meta.casesOn Ethabi.strValueOfMetaItem._sparseCasesOn_2 Ethabi.deTupleParams.match_1 Ethabi.ParamType.rec_1 Ethabi.EventParam.name Ethabi.Naming.snake Ethabi.World Ethabi.Json.arr Ethabi.NestedMeta.rec Ethabi.deEventSeq Ethabi.StateMutability.nonPayable Ethabi.toEthabiParamVec Ethabi.Tok.doc Ethabi.indexVec Ethabi.Param.mk Ethabi.ReadSt Ethabi.Json.below Ethabi.readLoop.match_3 Ethabi.TupleParam.mk Ethabi.lit Ethabi.JsonGrammar.Entries Ethabi.deOperations.match_1 Ethabi.mutabilityCode Ethabi.Contract.add Ethabi.Json.bool Ethabi.inputNamesFrom Ethabi.JsonGrammar.Renders Ethabi.Mode.rec Ethabi.eventNamesFrom._f Ethabi.deArr._sparseCasesOn_1 Ethabi.Contract.receive Ethabi.splitTag.match_3 Ethabi.functionExpr Ethabi.Json.ctorIdx Ethabi.indexVec.match_1 Ethabi.JsonGrammar.HexDigit Ethabi.Contract.add.match_1 Ethabi.FieldSt Ethabi.callBody Ethabi.Err.other Ethabi.Operation.event Ethabi.Err.invalidData Ethabi.deParamFields._f Ethabi.Meta.name Ethabi.JsonGrammar.Hex4 Ethabi.Function.constant Ethabi.readComma Ethabi.readElementary Ethabi.outputKinds.match_1 Ethabi.JsonGrammar.Value.array Ethabi.utf8Char Ethabi.topicNamesFrom._f Ethabi.ReadSt.nested Ethabi.Mode.buffered Ethabi.deName Ethabi.Json.num Ethabi.MetaLit.ctorIdx Ethabi.getOptions._sparseCasesOn_1 Ethabi.Err.invalidName Ethabi.Res.ctorIdx Ethabi.ParamType.fixedArray Ethabi.Attribute.mk Ethabi.fromTokenCode._f Ethabi.readFuel Ethabi.mutabilityCode.match_1 Ethabi.deOperations Ethabi.required Ethabi.functionText Ethabi.JsonGrammar.Value.false Ethabi.Operation.function Ethabi.Res.bind Ethabi.getOption.match_1 Ethabi.eventText Ethabi.Naming.valid Ethabi.Param Ethabi.Res Ethabi.boolTok Ethabi.setTupleComponents.match_1 Ethabi.mapRes Ethabi.paramCode Ethabi.Operation Ethabi.deVec.match_1 Ethabi.deFunctionSeq.match_3 Ethabi.JsonGrammar.Exponent Ethabi.generateConstructors.match_1 Ethabi.OpSt.constant Ethabi.FieldSt.kind Ethabi.Res.panic Ethabi.MetaLit.other Ethabi.strSlice Ethabi.ReadSt.lastItem Ethabi.encodeInputBody Ethabi.ParamType.fixedBytes Ethabi.ParamType.int Ethabi.generateContract Ethabi.JsonGrammar.Escaped.plain Ethabi.StateMutability.pure Ethabi.synIndex Ethabi.Event.anonymous Ethabi.ParamType.below Ethabi.OpSt Ethabi.ethabiDerive Ethabi.ParamType.tuple Ethabi.outputKinds._sparseCasesOn_1 Ethabi.filterDeclarations Ethabi.endOfSeq Ethabi.JsonGrammar.Value.null Ethabi.readClose Ethabi.Meta.rec Ethabi.eventParamCode Ethabi.eventNamesFrom.match_1 Ethabi.filterInitFrom.match_1 Ethabi.JsonGrammar.Number.minus Ethabi.pushEntry._f Ethabi.strSlice.match_1 Ethabi.JsonGrammar.Value.true Ethabi.JsonGrammar.Chars Ethabi.Operation.receive Ethabi.splitAtByte Ethabi.deString Ethabi.toTokenCode Ethabi.NestedMeta.item Ethabi.deStateMutability.match_1 Ethabi.deTupleFields.match_1 Ethabi.ParamType.bool Ethabi.innerTuple._sparseCasesOn_1 Ethabi.Err.utf8 Ethabi.ParamType.array Ethabi.Json.rec_2 Ethabi.ParamType.below_1 Ethabi.JsonGrammar.Number.plus Ethabi.NestedMeta.casesOn Ethabi.FieldSt.name Ethabi.ethabiDerive.match_1 Ethabi.ParamType.brecOn Ethabi.extendInner._f Ethabi.normalizePath Ethabi.OpSt.stateMutability Ethabi.Function.outputs Ethabi.Naming.camel Ethabi.Attribute.parsed Ethabi.eventNamesFrom Ethabi.ParamType.string Ethabi.deEventOpFields._f Ethabi.MetaPath Ethabi.digitsVal Ethabi.TupleParam Ethabi.StateMutability Ethabi.outputImplementation.match_1 Ethabi.Meta.ctorIdx Ethabi.JsonGrammar.Items Ethabi.deComponents.match_1 Ethabi.Contract.fallback Ethabi.JsonGrammar.Value.noItems Ethabi.deVec Ethabi.commas Ethabi.toSyntaxString.match_1 Ethabi.Naming.ident Ethabi.deKind Ethabi.deString.match_1 Ethabi.inputNamesFrom.match_1 Ethabi.readStep Ethabi.JsonGrammar.Escaped.short Ethabi.ReadSt.topOpen Ethabi.deEvent Ethabi.Tok Ethabi.deBool Ethabi.Operation.rec Ethabi.Attribute Ethabi.deEventSeq.match_1 Ethabi.OpSt.anonymous Ethabi.kindsOf Ethabi.deTupleFields._f Ethabi.required.match_1 Ethabi.byteLen Ethabi.JsonGrammar.Hex4.mk Ethabi.OpSt.eventInputs Ethabi.Event.mk Ethabi.deBool.match_1 Ethabi.fromTokenCode Ethabi.vecCode Ethabi.Err.parseInt Ethabi.fromTemplateParam Ethabi.FieldSt.components Ethabi.parseLogBody Ethabi.declarationsFrom._f Ethabi.natText Ethabi.NestedMeta.toMeta Ethabi.Function.mk Ethabi.deConstructorSeq Ethabi.Res.casesOn Ethabi.FieldSt.indexed Ethabi.sanitizeName Ethabi.deTupleParam._f Ethabi.Function.stateMutability Ethabi.pathPush Ethabi.JsonGrammar.Value.number Ethabi.Res.bind.match_1 Ethabi.Json.brecOn Ethabi.Contract.events Ethabi.templateNames Ethabi.Mode.direct Ethabi.deStateMutability Ethabi.outputKinds Ethabi.ParamType.address Ethabi.strValueOfMetaItem Ethabi.Meta.name.match_1 Ethabi.MetaLit Ethabi.JsonGrammar.Items.more Ethabi.Meta.path Ethabi.deFunctionFields.match_1 Ethabi.EventParam.indexed Ethabi.rustType._f Ethabi.JsonGrammar.Whole Ethabi.Bytes Ethabi.pushEntry.match_1 Ethabi.finishTupleParam Ethabi.outputImplementation Ethabi.innerTuple._f Ethabi.extendInner Ethabi.innerTuple Ethabi.rustType Ethabi.toTokenCode._f Ethabi.Mode.casesOn Ethabi.filterInitFrom._f Ethabi.getOptions.match_1 Ethabi.deConstructor Ethabi.MetaLit.rec Ethabi.MetaPath.isIdent Ethabi.splitAtByte.match_1 Ethabi.nextElement Ethabi.Res.err Ethabi.Function.inputs Ethabi.deStateMutability._sparseCasesOn_3 Ethabi.tokenizeCode._sparseCasesOn_1 Ethabi.Operation.casesOn Ethabi.deTupleParam._sparseCasesOn_1 Ethabi.JsonGrammar.Blank Ethabi.JsonGrammar.Chars.nil Ethabi.deConstructorFields Ethabi.Res.ok Ethabi.normalizePath.match_1 Ethabi.Constructor.mk Ethabi.Tok.str Ethabi.deOperation._sparseCasesOn_5 Ethabi.deTupleFields.match_3 Ethabi.templateParamType Ethabi.deComponents._f Ethabi.byteLen.match_1 Ethabi.deFunction Ethabi.EventParam Ethabi.numbered Ethabi.deStateMutability._sparseCasesOn_1 Ethabi.MetaPath.mk Ethabi.Json.null Ethabi.deParam Ethabi.strValueOfMetaItem.match_1 Ethabi.Function.name Ethabi.deKind.match_1 Ethabi.JsonGrammar.Value.object Ethabi.World.manifestDir Ethabi.deFunctionFields Ethabi.Constructor.inputs Ethabi.inputNamesFrom._f Ethabi.Contract.functions Ethabi.JsonGrammar.Escaped Ethabi.StateMutability.casesOn Ethabi.Naming.mk Ethabi.Res.instMonad Ethabi.Meta Ethabi.deEventFields Ethabi.tokenizeCode._f Ethabi.JsonGrammar.Value Ethabi.innerTuple.match_1 Ethabi.World.mk Ethabi.getOptions._sparseCasesOn_2 Ethabi.generateConstructor Ethabi.definitions Ethabi.StateMutability.payable Ethabi.generateLog Ethabi.JsonGrammar.Value.noEntries Ethabi.ReadSt.subtypes Ethabi.deEventFields._f Ethabi.ParamType.casesOn Ethabi.Code Ethabi.deFunctionSeq.match_7 Ethabi.readFuel._f Ethabi.JsonGrammar.Number Ethabi.deConstructorFields._f Ethabi.filterBody Ethabi.NestedMeta.toMeta.match_1 Ethabi.loadFile Ethabi.inputName Ethabi.fromTemplateParam.match_1 Ethabi.readLoop.match_1 Ethabi.rustVariable Ethabi.Contract.constructor Ethabi.generateFunction Ethabi.Meta.nameValue Ethabi.eventExpr Ethabi.ParamType Ethabi.splitTag._f Ethabi.JsonGrammar.Entries.one Ethabi.ParamType.ctorIdx Ethabi.Constructor Ethabi.indexSub Ethabi.declarationsFrom.match_1 Ethabi.declarationsFrom Ethabi.Json.below_3 Ethabi.isDigit Ethabi.rustType.match_1 Ethabi.deStateMutability._sparseCasesOn_2 Ethabi.ParamType.brecOn.go Ethabi.deOperations._f Ethabi.parseUsize Ethabi.JsonGrammar.Value.string Ethabi.TupleParam.kind Ethabi.readLoop Ethabi.JsonGrammar.Fraction Ethabi.deOperation Ethabi.ParamType.bytes Ethabi.JsonGrammar.Items.one Ethabi.Err Ethabi.Tok.word Ethabi.JsonGrammar.shorts Ethabi.Contract.mk Ethabi.readLoop._f Ethabi.splitTag Ethabi.mapRes.match_1 Ethabi.Str Ethabi.fromTemplateParam._sparseCasesOn_1 Ethabi.EventParam.kind Ethabi.loadFile.match_1 Ethabi.MetaPath.leading Ethabi.deOperation.match_5 Ethabi.deFunctionFields._f Ethabi.Naming Ethabi.Json.casesOn Ethabi.JsonGrammar.Text Ethabi.setTupleComponents Ethabi.Json.rec_3 Ethabi.commas.match_1 Ethabi.generateEvent Ethabi.Operation.constructor Ethabi.MetaPath.segments Ethabi.tokenizeCode.match_1 Ethabi.trailing._f Ethabi.FieldSt.mk Ethabi.Json.brecOn.go Ethabi.Tok.num Ethabi.ReadSt.subtuples Ethabi.logFields Ethabi.Event.inputs Ethabi.deFunctionSeq Ethabi.filterInitFrom Ethabi.ReadSt.mk Ethabi.Contract Ethabi.Meta.list Ethabi.JsonGrammar.Entries.more Ethabi.Json.rec_1 Ethabi.deEventOpFields Ethabi.deFunctionSeq.match_5 Ethabi.StateMutability.view Ethabi.OpSt.name Ethabi.Json.below_2 Ethabi.readFuel.match_1 Ethabi.stripPlus._sparseCasesOn_1 Ethabi.Json Ethabi.deOperation.match_1 Ethabi.readOpen Ethabi.EventParam.mk Ethabi.deOperationSeq.match_1 Ethabi.Contract.allEvents Ethabi.MetaLit.casesOn Ethabi.deEventParam Ethabi.ethabiDerive._sparseCasesOn_1 Ethabi.World.file Ethabi.commas._f Ethabi.tokenizeCode Ethabi.JsonGrammar.Chars.cons Ethabi.splitTag.match_1 Ethabi.logInit Ethabi.mapRes._f Ethabi.OpSt.inputs Ethabi.byteLen._f Ethabi.eventName Ethabi.deBool._sparseCasesOn_1 Ethabi.OpSt.outputs Ethabi.deTupleParam.match_1 Ethabi.constructorBody Ethabi.MetaLit.str Ethabi.deFunctionSeq.match_1 Ethabi.Event.name Ethabi.txt Ethabi.deArr Ethabi.deOperation.match_3 Ethabi.trailing Ethabi.trailing.match_1 Ethabi.Err.serdeJson Ethabi.deTupleParams._f
c76_determines Ethabi.Spec.Unopened.fixedArray Ethabi.Err.hex Ethabi.Spec.Elementary.int Ethabi.ParamType.uint Ethabi.Spec.Elementary Ethabi.Spec.TypeText.fixedArray Ethabi.Spec.FlatText.array Ethabi.Spec.Elementary.address Ethabi.Spec.TypeText.array Ethabi.Err.other Ethabi.Spec.Elementary.bytes Ethabi.Err.invalidData Ethabi.Spec.Elementary.tuple Ethabi.Err.invalidName Ethabi.ParamType.fixedArray Ethabi.Spec.Unopened.bare Ethabi.Res Ethabi.Spec.FlatUnopened Ethabi.Res.panic Ethabi.Spec.Members.cons Ethabi.ParamType.fixedBytes Ethabi.ParamType.int Ethabi.ParamType.tuple Ethabi.Spec.Members.nil Ethabi.Spec.Elementary.intN Ethabi.Spec.TypeText.elementary Ethabi.ParamType.bool Ethabi.Err.utf8 Ethabi.ParamType.array Ethabi.ParamType.string Ethabi.Spec.Elementary.uint Ethabi.Spec.FlatUnopened.tuple Ethabi.Err.parseInt Ethabi.Spec.Elementary.bytesN Ethabi.ParamType.address Ethabi.Spec.Unopened.array Ethabi.Res.err Ethabi.Spec.FlatText.tuple Ethabi.Spec.FlatUnopened.bare Ethabi.Res.ok Ethabi.Spec.FlatUnopened.fixedArray Ethabi.Spec.Members.skip Ethabi.Spec.FlatUnopened.array Ethabi.Spec.TypeText Ethabi.Spec.Unopened.number Ethabi.Spec.FlatText.elementary Ethabi.Spec.numberText Ethabi.Spec.Elementary.bool Ethabi.ParamType Ethabi.Spec.FlatText.fixedArray Ethabi.Spec.FlatText Ethabi.Spec.Members Ethabi.Spec.Elementary.uintN Ethabi.Spec.Unopened Ethabi.ParamType.bytes Ethabi.Err Ethabi.Spec.FlatUnopened.number Ethabi.Str Ethabi.Spec.Elementary.string Ethabi.Spec.commaSeparated Ethabi.Err.serdeJson
c90_determines_tuple_param Ethabi.stripPlus Ethabi.Err.hex Ethabi.Json.obj Ethabi.Spec.ParamFine Ethabi.Json.str Ethabi.Res.rec Ethabi.Spec.DenotesMember Ethabi.stripPlus.match_1 Ethabi.arrayNum Ethabi.ParamType.uint Ethabi.startsWith Ethabi.Spec.AroundTuple Ethabi.Mode Ethabi.Spec.AroundTuple.tuple Ethabi.splitAtByte._f Ethabi.read Ethabi.Json.arr Ethabi.Spec.DenotesType.tuple Ethabi.Spec.KnownKeys Ethabi.indexVec Ethabi.ReadSt Ethabi.readLoop.match_3 Ethabi.TupleParam.mk Ethabi.lit Ethabi.Json.bool Ethabi.indexVec.match_1 Ethabi.TupleParam.name Ethabi.Err.other Ethabi.Spec.CrashesParam.components Ethabi.Err.invalidData Ethabi.Spec.entriesOf Ethabi.Spec.WithMembers.tuple Ethabi.readComma Ethabi.readElementary Ethabi.utf8Char Ethabi.ReadSt.nested Ethabi.Mode.buffered Ethabi.Json.num Ethabi.Err.invalidName Ethabi.ParamType.fixedArray Ethabi.readFuel Ethabi.Res.bind Ethabi.Spec.DenotesMembers Ethabi.Res Ethabi.Res.panic Ethabi.strSlice Ethabi.ReadSt.lastItem Ethabi.ParamType.fixedBytes Ethabi.ParamType.int Ethabi.ParamType.tuple Ethabi.Spec.OptionalString.match_1 Ethabi.readClose Ethabi.strSlice.match_1 Ethabi.Spec.WithMembers Ethabi.splitAtByte Ethabi.Spec.WithMembers.fixedArray Ethabi.ParamType.bool Ethabi.Err.utf8 Ethabi.ParamType.array Ethabi.Spec.DenotesMembers.nil Ethabi.ParamType.string Ethabi.digitsVal Ethabi.TupleParam Ethabi.Spec.CrashesParam.type Ethabi.readStep Ethabi.ReadSt.topOpen Ethabi.byteLen Ethabi.Err.parseInt Ethabi.Res.casesOn Ethabi.Res.bind.match_1 Ethabi.Mode.direct Ethabi.ParamType.address Ethabi.Bytes Ethabi.splitAtByte.match_1 Ethabi.Spec.AroundTuple.array Ethabi.Res.err Ethabi.Res.ok Ethabi.TupleParam.internalType Ethabi.Spec.DenotesType Ethabi.byteLen.match_1 Ethabi.Json.null Ethabi.Spec.ComponentsFine Ethabi.Spec.Once Ethabi.Res.instMonad Ethabi.Spec.DenotesType.plain Ethabi.Spec.Absent Ethabi.ReadSt.subtypes Ethabi.readFuel._f Ethabi.Spec.TypeFine Ethabi.readLoop.match_1 Ethabi.ParamType Ethabi.indexSub Ethabi.isDigit Ethabi.parseUsize Ethabi.TupleParam.kind Ethabi.readLoop Ethabi.ParamType.bytes Ethabi.Err Ethabi.readLoop._f Ethabi.Str Ethabi.trailing._f Ethabi.Spec.AroundTuple.fixedArray Ethabi.ReadSt.subtuples Ethabi.Spec.WithMembers.array Ethabi.ReadSt.mk Ethabi.readFuel.match_1 Ethabi.stripPlus._sparseCasesOn_1 Ethabi.Json Ethabi.readOpen Ethabi.Spec.DenotesMembers.cons Ethabi.Spec.CrashesParam Ethabi.byteLen._f Ethabi.Spec.OptionalString Ethabi.trailing Ethabi.trailing.match_1 Ethabi.Spec.DenotesMember.mk Ethabi.Spec.DenotesType.unused Ethabi.Err.serdeJson
c85_determines_decode_params Ethabi.Spec.typeNames._f Ethabi.stripPlus Ethabi.Profile Ethabi.Err.hex Ethabi.Props.ReadAs Ethabi.Json.obj Ethabi.Json.str Ethabi.Spec.hexadecimal Ethabi.Props.PrintsLines Ethabi.Res.rec Ethabi.stripPlus.match_1 Ethabi.Spec.dynamicAny.match_1 Ethabi.arrayNum Ethabi.ParamType.uint Ethabi.startsWith Ethabi.ParamType.rec Ethabi.Spec.hexText Ethabi.second4 Ethabi.splitAtByte._f Ethabi.Spec.smallAt Ethabi.read Ethabi.Token.array Ethabi.Token.displayAll.match_1 Ethabi.ParamType.rec_1 Ethabi.Spec.staticSize._sparseCasesOn_1 Ethabi.Spec.headWidth Ethabi.Token.tuple Ethabi.Spec.zeroTypes Ethabi.Json.arr Ethabi.Spec.dynamicAny Ethabi.Token.displayAll._f Ethabi.indexVec Ethabi.ReadSt Ethabi.replacementChar Ethabi.Address Ethabi.readLoop.match_3 Ethabi.lit Ethabi.Spec.dynamicAny._f Ethabi.Json.bool Ethabi.U256 Ethabi.indexVec.match_1 Ethabi.Err.other Ethabi.Command.decodeLog Ethabi.Err.invalidData Ethabi.readComma Ethabi.fromUtf8Lossy._f Ethabi.readElementary Ethabi.utf8Char Ethabi.Spec.typeName._f Ethabi.Spec.narrowAll Ethabi.ReadSt.nested Ethabi.Json.num Ethabi.Err.invalidName Ethabi.ParamType.fixedArray Ethabi.readFuel Ethabi.Spec.numeral._f Ethabi.Res.bind Ethabi.Spec.dynamic._f Ethabi.Res Ethabi.Spec.staticSize.match_1 Ethabi.Token.string Ethabi.Res.panic Ethabi.Spec.narrowAll._f Ethabi.strSlice Ethabi.ReadSt.lastItem Ethabi.ParamType.fixedBytes Ethabi.Token.int Ethabi.ParamType.int Ethabi.Profile.release Ethabi.ParamType.below Ethabi.ParamType.tuple Ethabi.readClose Ethabi.Token.bytes Ethabi.hexDigit Ethabi.Token.display._f Ethabi.strSlice.match_1 Ethabi.Token.display.match_1 Ethabi.splitAtByte Ethabi.Spec.staticSize Ethabi.Spec.numberAt Ethabi.ParamType.bool Ethabi.Spec.dynamic.match_1 Ethabi.Token.below_1 Ethabi.Err.utf8 Ethabi.ParamType.array Ethabi.ParamType.below_1 Ethabi.fromUtf8Lossy.match_3 Ethabi.ParamType.brecOn Ethabi.ParamType.string Ethabi.digitsVal Ethabi.Spec.numeral Ethabi.Spec.staticSize._f Ethabi.Spec.hexDigitAny Ethabi.Spec.elementText.match_1 Ethabi.second3 Ethabi.readStep Ethabi.ReadSt.topOpen Ethabi.Spec.numeral._sparseCasesOn_1 Ethabi.fromUtf8Lossy Ethabi.Token.display Ethabi.byteLen Ethabi.fromUtf8Lossy.match_1 Ethabi.Err.parseInt Ethabi.Token.casesOn Ethabi.hexByte Ethabi.Spec.typeNames.match_1 Ethabi.Spec.spaced Ethabi.Res.casesOn Ethabi.Res.bind.match_1 Ethabi.utf8CharWidth Ethabi.hexNat Ethabi.Spec.readsAll Ethabi.ParamType.address Ethabi.Bytes Ethabi.Token.brecOn Ethabi.splitAtByte.match_1 Ethabi.Res.err Ethabi.Spec.readsAll.match_1 Ethabi.Command.encodeFunction Ethabi.Res.ok Ethabi.Spec.staticSizeAll._f Ethabi.join.match_1 Ethabi.Spec.typeName Ethabi.byteLen.match_1 Ethabi.fromUtf8Lossy.match_5 Ethabi.Spec.dynamic Ethabi.beNat Ethabi.Json.null Ethabi.Profile.debug Ethabi.Command.decodeParams Ethabi.Spec.reads.match_1 Ethabi.Token.address Ethabi.Res.instMonad Ethabi.Token.fixedBytes Ethabi.ReadSt.subtypes Ethabi.ParamType.casesOn Ethabi.ParamType.brecOn_1 Ethabi.readFuel._f Ethabi.readLoop.match_1 Ethabi.Spec.narrow._f Ethabi.Command Ethabi.join._sparseCasesOn_1 Ethabi.Token.below Ethabi.ParamType Ethabi.ParamType.ctorIdx Ethabi.Spec.payloadAt Ethabi.join Ethabi.indexSub Ethabi.Token Ethabi.isCont Ethabi.Token.rec Ethabi.Command.decodeFunction Ethabi.isDigit Ethabi.Command.encodeParams Ethabi.ParamType.brecOn.go Ethabi.parseUsize Ethabi.readLoop Ethabi.Token.uint Ethabi.Spec.numeral.match_1 Ethabi.ParamType.bytes Ethabi.Err Ethabi.readLoop._f Ethabi.Str Ethabi.Token.rec_1 Ethabi.Spec.readsAll._f Ethabi.trailing._f Ethabi.ReadSt.subtuples Ethabi.ReadSt.mk Ethabi.hexEncode Ethabi.Spec.reads._f Ethabi.ParamType.brecOn_1.go Ethabi.Token.brecOn.go Ethabi.fromUtf8Lossy.match_7 Ethabi.join._f Ethabi.readFuel.match_1 Ethabi.stripPlus._sparseCasesOn_1 Ethabi.Json Ethabi.Token.bool Ethabi.readOpen Ethabi.Token.fixedArray Ethabi.Spec.narrow._sparseCasesOn_1 Ethabi.Word Ethabi.byteLen._f Ethabi.Spec.hexDigitAny.match_1 Ethabi.trailing Ethabi.Spec.word Ethabi.trailing.match_1 Ethabi.Spec.narrow.match_1 Ethabi.Err.serdeJson Ethabi.Spec.typeName.match_1
c54_determines Ethabi.toTokens._f Ethabi.asUsize Ethabi.ParamType.isDynamic.match_1 Ethabi.Profile Ethabi.Event.signature Ethabi.Err.hex Ethabi.Event Ethabi.sliceFrom Ethabi.Res.rec Ethabi.ParamType.isDynamic Ethabi.decodeParam.match_1 Ethabi.ParamType.uint Ethabi.RustArgs._f Ethabi.ParamType.rec Ethabi.instReprProfile.repr.match_1 Ethabi.RustArgs.match_1 Ethabi.decodeParams._f Ethabi.second4 Ethabi.longSignature Ethabi.mapIndex Ethabi.Token.array Ethabi.RawLog.data Ethabi.ParamType.isDynamic._f Ethabi.ParamType.rec_1 Ethabi.ParamType.isEmptyBytesValidEncoding Ethabi.Token.tuple Ethabi.EventParam.name Ethabi.Event.parseLog Ethabi.Event.checkSignature.match_1 Ethabi.writeAll.match_1 Ethabi.RawLog Ethabi.Spec.generated._sparseCasesOn_1 Ethabi.replacementChar Ethabi.Address Ethabi.lit Ethabi.peek32 Ethabi.LogParam Ethabi.U256 Ethabi.Err.other Ethabi.RustArgs Ethabi.logParams._f Ethabi.Err.invalidData Ethabi.fromUtf8Lossy._f Ethabi.utf8Char Ethabi.RawLog.topics Ethabi.usizeAdd Ethabi.takeBytes Ethabi.Event.paramsNames Ethabi.Err.invalidName Ethabi.ParamType.fixedArray Ethabi.logParams.match_1 Ethabi.decodeLoop.match_1 Ethabi.Res.bind Ethabi.Res Ethabi.Token.string Ethabi.machine Ethabi.Profile.casesOn Ethabi.Res.panic Ethabi.toTokens Ethabi.ParamType.fixedBytes Ethabi.Token.int Ethabi.ParamType.int Ethabi.Profile.release Ethabi.Event.anonymous Ethabi.ParamType.below Ethabi.ParamType.tuple Ethabi.copyWord Ethabi.Token.bytes Ethabi.LogParam.value Ethabi.ParamType.bool Ethabi.ParamType.isDynamic._sparseCasesOn_1 Ethabi.convertTopicParamType.match_1 Ethabi.Rust.match_1 Ethabi.Err.utf8 Ethabi.toTokens.match_1 Ethabi.ParamType.array Ethabi.ParamType.below_1 Ethabi.fromUtf8Lossy.match_3 Ethabi.ParamType.brecOn Ethabi.ParamType.string Ethabi.Log.mk Ethabi.second3 Ethabi.wordAddress._proof_1 Ethabi.RawLog.mk Ethabi.fromUtf8Lossy Ethabi.decode Ethabi.Event.paramTypes Ethabi.fromUtf8Lossy.match_1 Ethabi.Event.mk Ethabi.decodeLoop.match_5 Ethabi.Err.parseInt Ethabi.natText Ethabi.writeAll._f Ethabi.peek Ethabi.convertTopicParamType Ethabi.Res.casesOn Ethabi.write Ethabi.strBytes Ethabi.Res.bind.match_1 Ethabi.Spec.generated._f Ethabi.utf8CharWidth Ethabi.decodeParams.match_1 Ethabi.Spec.generated Ethabi.Rust Ethabi.toToken.match_1 Ethabi.ParamType.address Ethabi.EventParam.indexed Ethabi.logParams Ethabi.Bytes Ethabi.toToken._f Ethabi.Rust._f Ethabi.Res.err Ethabi.Res.ok Ethabi.join.match_1 Ethabi.mapIndex.match_1 Ethabi.fromUtf8Lossy.match_5 Ethabi.U256.ofWord Ethabi.EventParam Ethabi.Spec.generated.match_1 Ethabi.beNat Ethabi.Profile.debug Ethabi.wordLow Ethabi.decodeParams Ethabi.Token.address Ethabi.Res.instMonad Ethabi.Token.fixedBytes Ethabi.asBool Ethabi.ParamType.usizeOkAll.match_1 Ethabi.Event.checkSignature Ethabi.decodeLoop._f Ethabi.toToken.match_3 Ethabi.ParamType.casesOn Ethabi.decodeLoop.match_3 Ethabi.ParamType.brecOn_1 Ethabi.join._sparseCasesOn_1 Ethabi.ParamType Ethabi.decodeLoop Ethabi.ParamType.ctorIdx Ethabi.join Ethabi.writeForAbi.match_1 Ethabi.Token Ethabi.isCont Ethabi.convertTopicParamType._sparseCasesOn_1 Ethabi.ParamType.brecOn.go Ethabi.LogParam.mk Ethabi.Token.uint Ethabi.ParamType.bytes Ethabi.Err Ethabi.ParamType.isEmptyBytesValidEncoding.match_1 Ethabi.ParamType.anyDynamic._f Ethabi.slice Ethabi.Str Ethabi.writeForAbi._f Ethabi.EventParam.kind Ethabi.Log.params Ethabi.toToken Ethabi.signatureText Ethabi.Event.inputs Ethabi.utf8 Ethabi.writeForAbi Ethabi.ParamType.anyDynamic Ethabi.wordAddress Ethabi.Event.indexedParams Ethabi.ParamType.brecOn_1.go Ethabi.fromUtf8Lossy.match_7 Ethabi.join._f Ethabi.Token.bool Ethabi.EventParam.mk Ethabi.Log Ethabi.Token.fixedArray Ethabi.Word Ethabi.ParamType.isEmptyBytesValidEncoding._sparseCasesOn_1 Ethabi.Event.name Ethabi.emptyDataMsg Ethabi.decodeParam._f Ethabi.Profile.rec Ethabi.Err.serdeJson
c77_determines_contract Ethabi.Function Ethabi.Spec.DenotesEach Ethabi.stripPlus Ethabi.Operation.fallback Ethabi.Err.hex Ethabi.Param.name Ethabi.Json.obj Ethabi.Event Ethabi.Json.str Ethabi.Res.rec Ethabi.Spec.DenotesMember Ethabi.stripPlus.match_1 Ethabi.arrayNum Ethabi.ParamType.uint Ethabi.startsWith Ethabi.Spec.DenotesOperation.eventArray Ethabi.Spec.AroundTuple Ethabi.StateMutability.rec Ethabi.Mode Ethabi.Spec.AroundTuple.tuple Ethabi.Param.kind Ethabi.splitAtByte._f Ethabi.read Ethabi.EventParam.name Ethabi.Json.arr Ethabi.StateMutability.nonPayable Ethabi.Spec.DenotesType.tuple Ethabi.Spec.KnownKeys Ethabi.indexVec Ethabi.Param.mk Ethabi.ReadSt Ethabi.readLoop.match_3 Ethabi.TupleParam.mk Ethabi.lit Ethabi.Spec.DenotesEventParam Ethabi.Spec.DenotesTail.both Ethabi.Json.bool Ethabi.Spec.mutabilityWord.match_1 Ethabi.indexVec.match_1 Ethabi.TupleParam.name Ethabi.Err.other Ethabi.Operation.event Ethabi.Err.invalidData Ethabi.Function.constant Ethabi.Spec.entriesOf Ethabi.Spec.DenotesEach.nil Ethabi.Spec.WithMembers.tuple Ethabi.readComma Ethabi.readElementary Ethabi.utf8Char Ethabi.ReadSt.nested Ethabi.Mode.buffered Ethabi.Json.num Ethabi.Spec.DefaultBool Ethabi.Err.invalidName Ethabi.ParamType.fixedArray Ethabi.readFuel Ethabi.Operation.function Ethabi.Res.bind Ethabi.Spec.DenotesMembers Ethabi.Param.internalType Ethabi.Param Ethabi.Res Ethabi.Spec.DenotesOperation.functionArray Ethabi.Operation Ethabi.Spec.WordJson Ethabi.Res.panic Ethabi.strSlice Ethabi.ReadSt.lastItem Ethabi.ParamType.fixedBytes Ethabi.ParamType.int Ethabi.StateMutability.pure Ethabi.Event.anonymous Ethabi.ParamType.tuple Ethabi.Spec.OptionalString.match_1 Ethabi.readClose Ethabi.strSlice.match_1 Ethabi.Spec.WithMembers Ethabi.Operation.receive Ethabi.splitAtByte Ethabi.Spec.DenotesParam Ethabi.Spec.WithMembers.fixedArray Ethabi.Spec.WordJson.object Ethabi.ParamType.bool Ethabi.Err.utf8 Ethabi.ParamType.array Ethabi.Spec.DenotesMembers.nil Ethabi.Spec.mutabilityWord Ethabi.Function.outputs Ethabi.ParamType.string Ethabi.digitsVal Ethabi.TupleParam Ethabi.StateMutability Ethabi.Spec.DenotesOperation.event Ethabi.readStep Ethabi.ReadSt.topOpen Ethabi.Spec.DenotesOperation.receive Ethabi.byteLen Ethabi.Spec.DenotesOperation.receiveArray Ethabi.Event.mk Ethabi.Err.parseInt Ethabi.Spec.DenotesOperation.constructor Ethabi.Spec.DenotesTail Ethabi.Function.mk Ethabi.Res.casesOn Ethabi.Function.stateMutability Ethabi.Res.bind.match_1 Ethabi.Mode.direct Ethabi.ParamType.address Ethabi.EventParam.indexed Ethabi.Bytes Ethabi.splitAtByte.match_1 Ethabi.Spec.AroundTuple.array Ethabi.Res.err Ethabi.Function.inputs Ethabi.Spec.DenotesName Ethabi.Res.ok Ethabi.TupleParam.internalType Ethabi.Constructor.mk Ethabi.Spec.DenotesType Ethabi.Spec.DenotesTail.none Ethabi.Spec.DenotesOperation Ethabi.byteLen.match_1 Ethabi.EventParam Ethabi.Json.null Ethabi.Function.name Ethabi.Spec.DenotesOperation.function Ethabi.Spec.Once Ethabi.StateMutability.casesOn Ethabi.Res.instMonad Ethabi.Spec.DenotesOperation.constructorArray Ethabi.Spec.DenotesType.plain Ethabi.StateMutability.payable Ethabi.Spec.Absent Ethabi.Spec.DenotesTail.constant Ethabi.ReadSt.subtypes Ethabi.readFuel._f Ethabi.Spec.DenotesEach.cons Ethabi.readLoop.match_1 Ethabi.ParamType Ethabi.Constructor Ethabi.Spec.WordJson.string Ethabi.indexSub Ethabi.isDigit Ethabi.parseUsize Ethabi.TupleParam.kind Ethabi.readLoop Ethabi.ParamType.bytes Ethabi.Err Ethabi.Contract.mk Ethabi.readLoop._f Ethabi.Str Ethabi.EventParam.kind Ethabi.Operation.constructor Ethabi.Spec.DenotesMutability Ethabi.trailing._f Ethabi.Spec.AroundTuple.fixedArray Ethabi.ReadSt.subtuples Ethabi.Event.inputs Ethabi.Spec.WithMembers.array Ethabi.ReadSt.mk Ethabi.Contract Ethabi.StateMutability.view Ethabi.readFuel.match_1 Ethabi.stripPlus._sparseCasesOn_1 Ethabi.Json Ethabi.Spec.DenotesOperation.fallback Ethabi.readOpen Ethabi.EventParam.mk Ethabi.Spec.DenotesMembers.cons Ethabi.byteLen._f Ethabi.Spec.DenotesOperation.fallbackArray Ethabi.Spec.OptionalString Ethabi.Event.name Ethabi.Spec.CutAtParen Ethabi.trailing Ethabi.trailing.match_1 Ethabi.Spec.DenotesMember.mk Ethabi.Spec.DenotesType.unused Ethabi.Err.serdeJson
c99_determines_load Ethabi.Function Ethabi.Spec.DenotesEach Ethabi.deString._sparseCasesOn_1 Ethabi.OpSt.mk Ethabi.Json.below_1 Ethabi.JsonGrammar.Begun.nil Ethabi.stripPlus Ethabi.mutabilityVariant Ethabi.deVec._f Ethabi.Operation.fallback Ethabi.Err.hex Ethabi.deParamFields Ethabi.Param.name Ethabi.JsonGrammar.Escaped.pair Ethabi.Json.obj Ethabi.Spec.ParamFine Ethabi.deComponents Ethabi.Event Ethabi.Json.str Ethabi.Res.rec Ethabi.Spec.DenotesMember Ethabi.stripPlus.match_1 Ethabi.JsonGrammar.Digits Ethabi.deComponents._sparseCasesOn_1 Ethabi.Json.rec Ethabi.arrayNum Ethabi.ParamType.uint Ethabi.pushEntry Ethabi.deOperationSeq Ethabi.Spec.CrashesOperation.event Ethabi.startsWith Ethabi.ParamType.rec Ethabi.Spec.DenotesOperation.eventArray Ethabi.Spec.CrashesEventParam.components Ethabi.deStateMutability._sparseCasesOn_4 Ethabi.Spec.AroundTuple Ethabi.StateMutability.rec Ethabi.Mode Ethabi.FieldSt.internalType Ethabi.Spec.AroundTuple.tuple Ethabi.JsonGrammar.Escaped.code Ethabi.deOperationSeq._sparseCasesOn_1 Ethabi.Param.kind Ethabi.splitAtByte._f Ethabi.read Ethabi.deContract Ethabi.deArr.match_1 Ethabi.deTupleParams.match_1 Ethabi.ParamType.rec_1 Ethabi.EventParam.name Ethabi.Json.arr Ethabi.deEventSeq Ethabi.StateMutability.nonPayable Ethabi.Spec.DenotesType.tuple Ethabi.Spec.KnownKeys Ethabi.indexVec Ethabi.Param.mk Ethabi.ReadSt Ethabi.Json.below Ethabi.readLoop.match_3 Ethabi.TupleParam.mk Ethabi.lit Ethabi.Spec.DenotesEventParam Ethabi.JsonGrammar.Entries Ethabi.deOperations.match_1 Ethabi.Spec.DenotesTail.both Ethabi.Contract.add Ethabi.Json.bool Ethabi.Mode.rec Ethabi.deArr._sparseCasesOn_1 Ethabi.Contract.receive Ethabi.splitTag.match_3 Ethabi.Spec.mutabilityWord.match_1 Ethabi.Json.ctorIdx Ethabi.indexVec.match_1 Ethabi.JsonGrammar.HexDigit Ethabi.Contract.add.match_1 Ethabi.FieldSt Ethabi.TupleParam.name Ethabi.Err.other Ethabi.Spec.CrashesParam.components Ethabi.Operation.event Ethabi.Err.invalidData Ethabi.deParamFields._f Ethabi.JsonGrammar.Hex4 Ethabi.Function.constant Ethabi.Spec.entriesOf Ethabi.Spec.DenotesEach.nil Ethabi.Spec.WithMembers.tuple Ethabi.readComma Ethabi.readElementary Ethabi.Spec.CrashesOperation.function Ethabi.JsonGrammar.Value.array Ethabi.utf8Char Ethabi.Spec.CrashesEventParam Ethabi.ReadSt.nested Ethabi.Mode.buffered Ethabi.deName Ethabi.Json.num Ethabi.Spec.DefaultBool Ethabi.Err.invalidName Ethabi.ParamType.fixedArray Ethabi.readFuel Ethabi.deOperations Ethabi.required Ethabi.JsonGrammar.Value.false Ethabi.Operation.function Ethabi.Res.bind Ethabi.Spec.DenotesMembers Ethabi.Param.internalType Ethabi.Param Ethabi.Res Ethabi.Spec.DenotesOperation.functionArray Ethabi.setTupleComponents.match_1 Ethabi.Operation Ethabi.deVec.match_1 Ethabi.deFunctionSeq.match_3 Ethabi.JsonGrammar.Exponent Ethabi.Spec.WordJson Ethabi.OpSt.constant Ethabi.FieldSt.kind Ethabi.Res.panic Ethabi.strSlice Ethabi.ReadSt.lastItem Ethabi.ParamType.fixedBytes Ethabi.ParamType.int Ethabi.JsonGrammar.Escaped.plain Ethabi.StateMutability.pure Ethabi.Spec.CrashesAt Ethabi.Event.anonymous Ethabi.ParamType.below Ethabi.OpSt Ethabi.ParamType.tuple Ethabi.endOfSeq Ethabi.JsonGrammar.Value.null Ethabi.Spec.OptionalString.match_1 Ethabi.readClose Ethabi.Spec.ArrayFine Ethabi.JsonGrammar.Number.minus Ethabi.pushEntry._f Ethabi.strSlice.match_1 Ethabi.Spec.WithMembers Ethabi.JsonGrammar.Value.true Ethabi.JsonGrammar.Chars Ethabi.Operation.receive Ethabi.Spec.CrashesOperation.eventArray Ethabi.splitAtByte Ethabi.deString Ethabi.Spec.DenotesParam Ethabi.Spec.WithMembers.fixedArray Ethabi.deStateMutability.match_1 Ethabi.deTupleFields.match_1 Ethabi.Spec.WordJson.object Ethabi.ParamType.bool Ethabi.innerTuple._sparseCasesOn_1 Ethabi.Err.utf8 Ethabi.ParamType.array Ethabi.Json.rec_2 Ethabi.ParamType.below_1 Ethabi.JsonGrammar.Number.plus Ethabi.FieldSt.name Ethabi.Spec.DenotesMembers.nil Ethabi.ParamType.brecOn Ethabi.extendInner._f Ethabi.Spec.mutabilityWord Ethabi.OpSt.stateMutability Ethabi.Function.outputs Ethabi.Spec.FunctionFine Ethabi.ParamType.string Ethabi.deEventOpFields._f Ethabi.digitsVal Ethabi.TupleParam Ethabi.StateMutability Ethabi.JsonGrammar.Items Ethabi.deComponents.match_1 Ethabi.Contract.fallback Ethabi.JsonGrammar.Value.noItems Ethabi.deVec Ethabi.Spec.CrashesParam.type Ethabi.deKind Ethabi.Spec.DenotesOperation.event Ethabi.deString.match_1 Ethabi.readStep Ethabi.JsonGrammar.Escaped.short Ethabi.ReadSt.topOpen Ethabi.deEvent Ethabi.deBool Ethabi.Spec.DenotesOperation.receive Ethabi.Spec.CrashesOperation.functionArrayInputs Ethabi.Operation.rec Ethabi.deEventSeq.match_1 Ethabi.OpSt.anonymous Ethabi.deTupleFields._f Ethabi.Spec.CrashesOperation.functionArrayOutputs Ethabi.required.match_1 Ethabi.byteLen Ethabi.JsonGrammar.Hex4.mk Ethabi.Spec.DenotesOperation.receiveArray Ethabi.OpSt.eventInputs Ethabi.Spec.CrashesOperation.constructorArray Ethabi.Event.mk Ethabi.deBool.match_1 Ethabi.Err.parseInt Ethabi.FieldSt.components Ethabi.Spec.DenotesOperation.constructor Ethabi.Spec.DenotesTail Ethabi.Function.mk Ethabi.deConstructorSeq Ethabi.Res.casesOn Ethabi.FieldSt.indexed Ethabi.sanitizeName Ethabi.deTupleParam._f Ethabi.Function.stateMutability Ethabi.JsonGrammar.Value.number Ethabi.Res.bind.match_1 Ethabi.Json.brecOn Ethabi.Contract.events Ethabi.Mode.direct Ethabi.deStateMutability Ethabi.Spec.CrashesEventParam.type Ethabi.Spec.CrashesOperation.constructor Ethabi.ParamType.address Ethabi.JsonGrammar.Items.more Ethabi.deFunctionFields.match_1 Ethabi.EventParam.indexed Ethabi.JsonGrammar.Whole Ethabi.Bytes Ethabi.pushEntry.match_1 Ethabi.finishTupleParam Ethabi.innerTuple._f Ethabi.extendInner Ethabi.innerTuple Ethabi.Mode.casesOn Ethabi.deConstructor Ethabi.splitAtByte.match_1 Ethabi.Spec.AroundTuple.array Ethabi.nextElement Ethabi.Res.err Ethabi.Function.inputs Ethabi.deStateMutability._sparseCasesOn_3 Ethabi.Operation.casesOn Ethabi.deTupleParam._sparseCasesOn_1 Ethabi.JsonGrammar.Blank Ethabi.JsonGrammar.Chars.nil Ethabi.Spec.DenotesName Ethabi.deConstructorFields Ethabi.Res.ok Ethabi.TupleParam.internalType Ethabi.Constructor.mk Ethabi.Spec.DenotesType Ethabi.Spec.DenotesTail.none Ethabi.Spec.DenotesOperation Ethabi.deOperation._sparseCasesOn_5 Ethabi.deTupleFields.match_3 Ethabi.deComponents._f Ethabi.byteLen.match_1 Ethabi.deFunction Ethabi.EventParam Ethabi.deStateMutability._sparseCasesOn_1 Ethabi.Json.null Ethabi.deParam Ethabi.Function.name Ethabi.deKind.match_1 Ethabi.JsonGrammar.Value.object Ethabi.Spec.ComponentsFine Ethabi.deFunctionFields Ethabi.Spec.DenotesOperation.function Ethabi.Spec.Once Ethabi.Contract.functions Ethabi.JsonGrammar.Escaped Ethabi.StateMutability.casesOn Ethabi.Res.instMonad Ethabi.deEventFields Ethabi.JsonGrammar.Value Ethabi.innerTuple.match_1 Ethabi.Spec.DenotesOperation.constructorArray Ethabi.Spec.DenotesType.plain Ethabi.StateMutability.payable Ethabi.Spec.Absent Ethabi.Spec.DenotesTail.constant Ethabi.JsonGrammar.Value.noEntries Ethabi.ReadSt.subtypes Ethabi.deEventFields._f Ethabi.ParamType.casesOn Ethabi.deFunctionSeq.match_7 Ethabi.readFuel._f Ethabi.JsonGrammar.Number Ethabi.deConstructorFields._f Ethabi.Spec.EventParamFine Ethabi.Spec.DenotesEach.cons Ethabi.Spec.TypeFine Ethabi.JsonGrammar.Begun Ethabi.readLoop.match_1 Ethabi.Contract.constructor Ethabi.ParamType Ethabi.splitTag._f Ethabi.JsonGrammar.Entries.one Ethabi.ParamType.ctorIdx Ethabi.Constructor Ethabi.Spec.WordJson.string Ethabi.indexSub Ethabi.Json.below_3 Ethabi.isDigit Ethabi.deStateMutability._sparseCasesOn_2 Ethabi.ParamType.brecOn.go Ethabi.deOperations._f Ethabi.parseUsize Ethabi.JsonGrammar.Value.string Ethabi.TupleParam.kind Ethabi.readLoop Ethabi.JsonGrammar.Fraction Ethabi.deOperation Ethabi.ParamType.bytes Ethabi.JsonGrammar.Items.one Ethabi.Err Ethabi.JsonGrammar.shorts Ethabi.Contract.mk Ethabi.readLoop._f Ethabi.splitTag Ethabi.Str Ethabi.EventParam.kind Ethabi.deOperation.match_5 Ethabi.deFunctionFields._f Ethabi.Json.casesOn Ethabi.JsonGrammar.Text Ethabi.setTupleComponents Ethabi.Json.rec_3 Ethabi.Operation.constructor Ethabi.Spec.DenotesMutability Ethabi.trailing._f Ethabi.FieldSt.mk Ethabi.Json.brecOn.go Ethabi.Spec.AroundTuple.fixedArray Ethabi.ReadSt.subtuples Ethabi.Event.inputs Ethabi.deFunctionSeq Ethabi.JsonGrammar.Begun.cons Ethabi.Spec.WithMembers.array Ethabi.ReadSt.mk Ethabi.Contract Ethabi.JsonGrammar.Entries.more Ethabi.Json.rec_1 Ethabi.deEventOpFields Ethabi.deFunctionSeq.match_5 Ethabi.StateMutability.view Ethabi.OpSt.name Ethabi.Spec.CrashesOperation Ethabi.Json.below_2 Ethabi.Spec.EventFine Ethabi.readFuel.match_1 Ethabi.stripPlus._sparseCasesOn_1 Ethabi.Json Ethabi.Spec.DenotesOperation.fallback Ethabi.deOperation.match_1 Ethabi.readOpen Ethabi.EventParam.mk Ethabi.deOperationSeq.match_1 Ethabi.deEventParam Ethabi.JsonGrammar.Chars.cons Ethabi.Spec.DenotesMembers.cons Ethabi.splitTag.match_1 Ethabi.Spec.CrashesParam Ethabi.OpSt.inputs Ethabi.byteLen._f Ethabi.deBool._sparseCasesOn_1 Ethabi.OpSt.outputs Ethabi.deTupleParam.match_1 Ethabi.Spec.DenotesOperation.fallbackArray Ethabi.Spec.OptionalString Ethabi.deFunctionSeq.match_1 Ethabi.Event.name Ethabi.deArr Ethabi.Spec.CutAtParen Ethabi.deOperation.match_3 Ethabi.trailing Ethabi.trailing.match_1 Ethabi.Spec.DenotesMember.mk Ethabi.Spec.DenotesType.unused Ethabi.Err.serdeJson Ethabi.deTupleParams._f
c118_determines_encode_params Ethabi.Spec.signedDecimal._sparseCasesOn_1 Ethabi.stripPlus Ethabi.Profile Ethabi.Props.valueArgs._f Ethabi.Err.hex Ethabi.Props.ReadAs Ethabi.Json.obj Ethabi.Json.str Ethabi.Spec.hexadecimal Ethabi.Spec.sound Ethabi.Res.rec Ethabi.HexReason.character Ethabi.stripPlus.match_1 Ethabi.Spec.hexFails Ethabi.arrayNum Ethabi.ParamType.uint Ethabi.startsWith Ethabi.Spec.decDigit Ethabi.ParamType.rec Ethabi.Spec.hexText Ethabi.splitAtByte._f Ethabi.Spec.decimal Ethabi.read Ethabi.Reason.notOpened Ethabi.Token.array Ethabi.ParamType.rec_1 Ethabi.Token.tuple Ethabi.Json.arr Ethabi.indexVec Ethabi.ReadSt Ethabi.Address Ethabi.readLoop.match_3 Ethabi.lit Ethabi.Reason Ethabi.Reason.unknownFunction Ethabi.Json.bool Ethabi.Reason.unknownEvent Ethabi.Spec.bytesIn Ethabi.U256 Ethabi.indexVec.match_1 Ethabi.Err.other Ethabi.Command.decodeLog Ethabi.Err.invalidData Ethabi.readComma Ethabi.Props.TypeFails Ethabi.readElementary Ethabi.utf8Char Ethabi.Spec.failsForAt._f Ethabi.ReadSt.nested Ethabi.Spec.outside._f Ethabi.Spec.signedDecimal Ethabi.Json.num Ethabi.Err.invalidName Ethabi.ParamType.fixedArray Ethabi.Reason.hex Ethabi.readFuel Ethabi.Spec.numeral._f Ethabi.Res.bind Ethabi.Res Ethabi.Token.string Ethabi.Spec.hexOfOtherLength Ethabi.Err.casesOn Ethabi.Res.panic Ethabi.strSlice Ethabi.ReadSt.lastItem Ethabi.ParamType.fixedBytes Ethabi.Token.int Ethabi.ParamType.int Ethabi.Profile.release Ethabi.ParamType.below Ethabi.ParamType.tuple Ethabi.Reason.underflow Ethabi.readClose Ethabi.Spec.hexFailsAt Ethabi.Token.bytes Ethabi.Spec.listOf Ethabi.strSlice.match_1 Ethabi.Reason.invalidName Ethabi.splitAtByte Ethabi.Spec.signedDecimal.match_1 Ethabi.Spec.spans Ethabi.Spec.failsFor._f Ethabi.ParamType.bool Ethabi.Err.utf8 Ethabi.ParamType.array Ethabi.ParamType.below_1 Ethabi.ParamType.brecOn Ethabi.Spec.depth Ethabi.ParamType.string Ethabi.digitsVal Ethabi.Spec.numeral Ethabi.Reason.decLength Ethabi.Spec.hexDigitAny Ethabi.Spec.elementText.match_1 Ethabi.Spec.intFails Ethabi.readStep Ethabi.ReadSt.topOpen Ethabi.Spec.numeral._sparseCasesOn_1 Ethabi.Err.rec Ethabi.Spec.denotesEach._f Ethabi.byteLen Ethabi.Reason.ambiguous Ethabi.Err.ctorIdx Ethabi.Spec.decFails Ethabi.Err.parseInt Ethabi.Spec.denotes._f Ethabi.Props.typeArgs Ethabi.Res.casesOn Ethabi.Res.bind.match_1 Ethabi.Spec.denotes.match_1 Ethabi.Spec.failsFor.match_1 Ethabi.ParamType.address Ethabi.Spec.denotesEach Ethabi.Spec.isHexDigit Ethabi.Spec.unmatched Ethabi.Bytes Ethabi.Reason.invalidData Ethabi.Told.ok Ethabi.splitAtByte.match_1 Ethabi.Props.typeArgs.match_1 Ethabi.Res.err Ethabi.Spec.cuts Ethabi.Command.encodeFunction Ethabi.Res.ok Ethabi.byteLen.match_1 Ethabi.beNat Ethabi.Json.null Ethabi.Told.err Ethabi.Told.panic Ethabi.Profile.debug Ethabi.Command.decodeParams Ethabi.HexReason Ethabi.Tokenizer.lenient Ethabi.Token.address Ethabi.Res.instMonad Ethabi.Token.fixedBytes Ethabi.ReadSt.subtypes Ethabi.ParamType.casesOn Ethabi.ParamType.brecOn_1 Ethabi.readFuel._f Ethabi.Spec.failsFor Ethabi.Reason.ofErr Ethabi.Spec.firstRefused Ethabi.readLoop.match_1 Ethabi.Props.typeArgs._sparseCasesOn_1 Ethabi.Spec.outside Ethabi.Reason.ofErr.match_1 Ethabi.Command Ethabi.Reason.ofErr._sparseCasesOn_1 Ethabi.Props.valueArgs Ethabi.ParamType Ethabi.Spec.partOf Ethabi.Reason.overflow Ethabi.Spec.quoted Ethabi.Spec.spans._f Ethabi.Tokenizer Ethabi.indexSub Ethabi.Token Ethabi.Command.decodeFunction Ethabi.Told Ethabi.Spec.outside.match_1 Ethabi.isDigit Ethabi.Command.encodeParams Ethabi.ParamType.brecOn.go Ethabi.parseUsize Ethabi.readLoop Ethabi.Spec.bracketed Ethabi.Token.uint Ethabi.Spec.numeral.match_1 Ethabi.ParamType.bytes Ethabi.Err Ethabi.readLoop._f Ethabi.HexReason.odd Ethabi.Spec.spans.match_1 Ethabi.Str Ethabi.Spec.failsForAt.match_1 Ethabi.Props.typeArgs._f Ethabi.Spec.denotes Ethabi.Spec.isFullHex Ethabi.Reason.plainHex Ethabi.trailing._f Ethabi.ReadSt.subtuples Ethabi.Reason.decCharacter Ethabi.ReadSt.mk Ethabi.Tokenizer.strict Ethabi.Reason.foreign Ethabi.Spec.partsThen Ethabi.ParamType.brecOn_1.go Ethabi.Spec.denotesEach.match_1 Ethabi.readFuel.match_1 Ethabi.stripPlus._sparseCasesOn_1 Ethabi.Json Ethabi.Token.bool Ethabi.readOpen Ethabi.Token.fixedArray Ethabi.Word Ethabi.byteLen._f Ethabi.Spec.hexDigitAny.match_1 Ethabi.trailing Ethabi.trailing.match_1 Ethabi.Spec.isCut Ethabi.Err.serdeJson
c90_determines_contract Ethabi.Function Ethabi.Spec.DenotesEach Ethabi.stripPlus Ethabi.Operation.fallback Ethabi.Err.hex Ethabi.Param.name Ethabi.Json.obj Ethabi.Spec.ParamFine Ethabi.Event Ethabi.Json.str Ethabi.Res.rec Ethabi.Spec.DenotesMember Ethabi.stripPlus.match_1 Ethabi.arrayNum Ethabi.ParamType.uint Ethabi.Spec.CrashesOperation.event Ethabi.startsWith Ethabi.Spec.DenotesOperation.eventArray Ethabi.Spec.CrashesEventParam.components Ethabi.Spec.AroundTuple Ethabi.StateMutability.rec Ethabi.Mode Ethabi.Spec.AroundTuple.tuple Ethabi.Param.kind Ethabi.splitAtByte._f Ethabi.read Ethabi.EventParam.name Ethabi.Json.arr Ethabi.StateMutability.nonPayable Ethabi.Spec.DenotesType.tuple Ethabi.Spec.KnownKeys Ethabi.indexVec Ethabi.Param.mk Ethabi.ReadSt Ethabi.readLoop.match_3 Ethabi.TupleParam.mk Ethabi.lit Ethabi.Spec.DenotesEventParam Ethabi.Spec.DenotesTail.both Ethabi.Json.bool Ethabi.Spec.mutabilityWord.match_1 Ethabi.indexVec.match_1 Ethabi.TupleParam.name Ethabi.Err.other Ethabi.Spec.CrashesParam.components Ethabi.Operation.event Ethabi.Err.invalidData Ethabi.Function.constant Ethabi.Spec.entriesOf Ethabi.Spec.DenotesEach.nil Ethabi.Spec.WithMembers.tuple Ethabi.readComma Ethabi.readElementary Ethabi.Spec.CrashesOperation.function Ethabi.utf8Char Ethabi.Spec.CrashesEventParam Ethabi.ReadSt.nested Ethabi.Mode.buffered Ethabi.Json.num Ethabi.Spec.DefaultBool Ethabi.Err.invalidName Ethabi.ParamType.fixedArray Ethabi.readFuel Ethabi.Operation.function Ethabi.Res.bind Ethabi.Spec.DenotesMembers Ethabi.Param.internalType Ethabi.Param Ethabi.Res Ethabi.Spec.DenotesOperation.functionArray Ethabi.Operation Ethabi.Spec.WordJson Ethabi.Res.panic Ethabi.strSlice Ethabi.ReadSt.lastItem Ethabi.ParamType.fixedBytes Ethabi.ParamType.int Ethabi.StateMutability.pure Ethabi.Spec.CrashesAt Ethabi.Event.anonymous Ethabi.ParamType.tuple Ethabi.Spec.OptionalString.match_1 Ethabi.readClose Ethabi.Spec.ArrayFine Ethabi.strSlice.match_1 Ethabi.Spec.WithMembers Ethabi.Operation.receive Ethabi.Spec.CrashesOperation.eventArray Ethabi.splitAtByte Ethabi.Spec.DenotesParam Ethabi.Spec.WithMembers.fixedArray Ethabi.Spec.WordJson.object Ethabi.ParamType.bool Ethabi.Err.utf8 Ethabi.ParamType.array Ethabi.Spec.DenotesMembers.nil Ethabi.Spec.mutabilityWord Ethabi.Function.outputs Ethabi.Spec.FunctionFine Ethabi.ParamType.string Ethabi.digitsVal Ethabi.TupleParam Ethabi.StateMutability Ethabi.Spec.CrashesParam.type Ethabi.Spec.DenotesOperation.event Ethabi.readStep Ethabi.ReadSt.topOpen Ethabi.Spec.DenotesOperation.receive Ethabi.Spec.CrashesOperation.functionArrayInputs Ethabi.Spec.CrashesOperation.functionArrayOutputs Ethabi.byteLen Ethabi.Spec.DenotesOperation.receiveArray Ethabi.Spec.CrashesOperation.constructorArray Ethabi.Event.mk Ethabi.Err.parseInt Ethabi.Spec.DenotesOperation.constructor Ethabi.Spec.DenotesTail Ethabi.Function.mk Ethabi.Res.casesOn Ethabi.Function.stateMutability Ethabi.Res.bind.match_1 Ethabi.Mode.direct Ethabi.Spec.CrashesEventParam.type Ethabi.Spec.CrashesOperation.constructor Ethabi.ParamType.address Ethabi.EventParam.indexed Ethabi.Bytes Ethabi.splitAtByte.match_1 Ethabi.Spec.AroundTuple.array Ethabi.Res.err Ethabi.Function.inputs Ethabi.Spec.DenotesName Ethabi.Res.ok Ethabi.TupleParam.internalType Ethabi.Constructor.mk Ethabi.Spec.DenotesType Ethabi.Spec.DenotesTail.none Ethabi.Spec.DenotesOperation Ethabi.byteLen.match_1 Ethabi.EventParam Ethabi.Json.null Ethabi.Function.name Ethabi.Spec.ComponentsFine Ethabi.Spec.DenotesOperation.function Ethabi.Spec.Once Ethabi.StateMutability.casesOn Ethabi.Res.instMonad Ethabi.Spec.DenotesOperation.constructorArray Ethabi.Spec.DenotesType.plain Ethabi.StateMutability.payable Ethabi.Spec.Absent Ethabi.Spec.DenotesTail.constant Ethabi.ReadSt.subtypes Ethabi.readFuel._f Ethabi.Spec.EventParamFine Ethabi.Spec.DenotesEach.cons Ethabi.Spec.TypeFine Ethabi.readLoop.match_1 Ethabi.ParamType Ethabi.Constructor Ethabi.Spec.WordJson.string Ethabi.indexSub Ethabi.isDigit Ethabi.parseUsize Ethabi.TupleParam.kind Ethabi.readLoop Ethabi.ParamType.bytes Ethabi.Err Ethabi.Contract.mk Ethabi.readLoop._f Ethabi.Str Ethabi.EventParam.kind Ethabi.Operation.constructor Ethabi.Spec.DenotesMutability Ethabi.trailing._f Ethabi.Spec.AroundTuple.fixedArray Ethabi.ReadSt.subtuples Ethabi.Event.inputs Ethabi.Spec.WithMembers.array Ethabi.ReadSt.mk Ethabi.Contract Ethabi.StateMutability.view Ethabi.Spec.CrashesOperation Ethabi.Spec.EventFine Ethabi.readFuel.match_1 Ethabi.stripPlus._sparseCasesOn_1 Ethabi.Json Ethabi.Spec.DenotesOperation.fallback Ethabi.readOpen Ethabi.EventParam.mk Ethabi.Spec.DenotesMembers.cons Ethabi.Spec.CrashesParam Ethabi.byteLen._f Ethabi.Spec.DenotesOperation.fallbackArray Ethabi.Spec.OptionalString Ethabi.Event.name Ethabi.Spec.CutAtParen Ethabi.trailing Ethabi.trailing.match_1 Ethabi.Spec.DenotesMember.mk Ethabi.Spec.DenotesType.unused Ethabi.Err.serdeJson
c77_determines_tuple_param Ethabi.stripPlus Ethabi.Err.hex Ethabi.Json.obj Ethabi.Json.str Ethabi.Res.rec Ethabi.Spec.DenotesMember Ethabi.stripPlus.match_1 Ethabi.arrayNum Ethabi.ParamType.uint Ethabi.startsWith Ethabi.Spec.AroundTuple Ethabi.Mode Ethabi.Spec.AroundTuple.tuple Ethabi.splitAtByte._f Ethabi.read Ethabi.Json.arr Ethabi.Spec.DenotesType.tuple Ethabi.Spec.KnownKeys Ethabi.indexVec Ethabi.ReadSt Ethabi.readLoop.match_3 Ethabi.TupleParam.mk Ethabi.lit Ethabi.Json.bool Ethabi.indexVec.match_1 Ethabi.TupleParam.name Ethabi.Err.other Ethabi.Err.invalidData Ethabi.Spec.entriesOf Ethabi.Spec.WithMembers.tuple Ethabi.readComma Ethabi.readElementary Ethabi.utf8Char Ethabi.ReadSt.nested Ethabi.Mode.buffered Ethabi.Json.num Ethabi.Err.invalidName Ethabi.ParamType.fixedArray Ethabi.readFuel Ethabi.Res.bind Ethabi.Spec.DenotesMembers Ethabi.Res Ethabi.Res.panic Ethabi.strSlice Ethabi.ReadSt.lastItem Ethabi.ParamType.fixedBytes Ethabi.ParamType.int Ethabi.ParamType.tuple Ethabi.Spec.OptionalString.match_1 Ethabi.readClose Ethabi.strSlice.match_1 Ethabi.Spec.WithMembers Ethabi.splitAtByte Ethabi.Spec.WithMembers.fixedArray Ethabi.ParamType.bool Ethabi.Err.utf8 Ethabi.ParamType.array Ethabi.Spec.DenotesMembers.nil Ethabi.ParamType.string Ethabi.digitsVal Ethabi.TupleParam Ethabi.readStep Ethabi.ReadSt.topOpen Ethabi.byteLen Ethabi.Err.parseInt Ethabi.Res.casesOn Ethabi.Res.bind.match_1 Ethabi.Mode.direct Ethabi.ParamType.address Ethabi.Bytes Ethabi.splitAtByte.match_1 Ethabi.Spec.AroundTuple.array Ethabi.Res.err Ethabi.Res.ok Ethabi.TupleParam.internalType Ethabi.Spec.DenotesType Ethabi.byteLen.match_1 Ethabi.Json.null Ethabi.Spec.Once Ethabi.Res.instMonad Ethabi.Spec.DenotesType.plain Ethabi.Spec.Absent Ethabi.ReadSt.subtypes Ethabi.readFuel._f Ethabi.readLoop.match_1 Ethabi.ParamType Ethabi.indexSub Ethabi.isDigit Ethabi.parseUsize Ethabi.TupleParam.kind Ethabi.readLoop Ethabi.ParamType.bytes Ethabi.Err Ethabi.readLoop._f Ethabi.Str Ethabi.trailing._f Ethabi.Spec.AroundTuple.fixedArray Ethabi.ReadSt.subtuples Ethabi.Spec.WithMembers.array Ethabi.ReadSt.mk Ethabi.readFuel.match_1 Ethabi.stripPlus._sparseCasesOn_1 Ethabi.Json Ethabi.readOpen Ethabi.Spec.DenotesMembers.cons Ethabi.byteLen._f Ethabi.Spec.OptionalString Ethabi.trailing Ethabi.trailing.match_1 Ethabi.Spec.DenotesMember.mk Ethabi.Spec.DenotesType.unused Ethabi.Err.serdeJson
c102_determines Ethabi.asUsize Ethabi.Function Ethabi.ParamType.isDynamic.match_1 Ethabi.Spec.DenotesEach Ethabi.deString._sparseCasesOn_1 Ethabi.OpSt.mk Ethabi.Json.below_1 Ethabi.JsonGrammar.Begun.nil Ethabi.stripPlus Ethabi.mutabilityVariant Ethabi.deVec._f Ethabi.Profile Ethabi.Operation.fallback Ethabi.Event.signature Ethabi.Err.hex Ethabi.Token.allCheck._f Ethabi.deParamFields Ethabi.ParamType.array.noConfusion Ethabi.Param.name Ethabi.JsonGrammar.Opens.match_1 Ethabi.JsonGrammar.Escaped.pair Ethabi.Json.obj Ethabi.Command.casesOn Ethabi.Token.anyDynamic._f Ethabi.Spec.ParamFine Ethabi.deComponents Ethabi.ParamType.bytes.elim Ethabi.Event Ethabi.sliceFrom Ethabi.Json.str Ethabi.ParamType.decEq.match_5 Ethabi.cliDecodeLog Ethabi.Res.rec Ethabi.Spec.DenotesMember Ethabi.stripPlus.match_1 Ethabi.ParamType.isDynamic Ethabi.JsonGrammar.Digits Ethabi.deComponents._sparseCasesOn_1 Ethabi.Token.tupleCheck._f Ethabi.Json.rec Ethabi.decodeParam.match_1 Ethabi.typedLines._f Ethabi.arrayNum Ethabi.ParamType.uint Ethabi.pushEntry Ethabi.deOperationSeq Ethabi.Spec.CrashesOperation.event Ethabi.Mediate.rec_1 Ethabi.Contract.functionsByName Ethabi.hexDecode._sparseCasesOn_1 Ethabi.ParamType.address.elim Ethabi.startsWith Ethabi.ParamType.rec Ethabi.cliDecodeOutput Ethabi.loadFunction Ethabi.Spec.DenotesOperation.eventArray Ethabi.Spec.CrashesEventParam.components Ethabi.deStateMutability._sparseCasesOn_4 Ethabi.Spec.AroundTuple Ethabi.instReprProfile.repr.match_1 Ethabi.StateMutability.rec Ethabi.Mode Ethabi.FieldSt.internalType Ethabi.Token.typeCheck.match_16 Ethabi.decodeParams._f Ethabi.Function.signature Ethabi.Spec.AroundTuple.tuple Ethabi.JsonGrammar.Escaped.code Ethabi.deOperationSeq._sparseCasesOn_1 Ethabi.Token.anyDynamic Ethabi.Function.decodeOutput Ethabi.Param.kind Ethabi.second4 Ethabi.parseTokens._f Ethabi.longSignature Ethabi.splitAtByte._f Ethabi.tokenizeArray Ethabi.Token.typeCheck._sparseCasesOn_10 Ethabi.mapIndex Ethabi.padU32._proof_1 Ethabi.read Ethabi.parseTokens.match_1 Ethabi.deContract Ethabi.deArr.match_1 Ethabi.Token.array Ethabi.u32add Ethabi.RawLog.data Ethabi.typedLines Ethabi.ParamType.isDynamic._f Ethabi.Token.typeCheck.match_13 Ethabi.Mediate.tails Ethabi.deTupleParams.match_1 Ethabi.Token.displayAll.match_1 Ethabi.ParamType.noConfusion Ethabi.encodeToken._f Ethabi.ParamType.rec_1 Ethabi.instDecidableEqParamType Ethabi.Mediate.tailLen._f Ethabi.ParamType.isEmptyBytesValidEncoding Ethabi.Token.tuple Ethabi.Mediate.headLen Ethabi.JsonGrammar.Opens Ethabi.EventParam.name Ethabi.tokenizeInt Ethabi.Event.parseLog Ethabi.lenientInt Ethabi.Event.checkSignature.match_1 Ethabi.Json.arr Ethabi.writeAll.match_1 Ethabi.cliEncodeInput Ethabi.deEventSeq Ethabi.StateMutability.nonPayable Ethabi.RawLog Ethabi.Mediate.headLen._f Ethabi.Mediate.heads.match_1 Ethabi.Spec.DenotesType.tuple Ethabi.tokenizeFixedArray Ethabi.Spec.KnownKeys Ethabi.Token.displayAll._f Ethabi.Token.typeCheck._sparseCasesOn_1 Ethabi.indexVec Ethabi.Param.mk Ethabi.ReadSt Ethabi.replacementChar Ethabi.Address Ethabi.Json.below Ethabi.readLoop.match_3 Ethabi.TupleParam.mk Ethabi.lit Ethabi.decodeOutputOf Ethabi.Token.typesCheck Ethabi.Spec.DenotesEventParam Ethabi.JsonGrammar.Entries Ethabi.deOperations.match_1 Ethabi.peek32 Ethabi.Spec.DenotesTail.both Ethabi.Contract.add Ethabi.Mediate.below Ethabi.Json.bool Ethabi.LogParam Ethabi.Token.zipCheck Ethabi.openAbi Ethabi.Mediate.prefixedTuple Ethabi.JsonGrammar.Renders Ethabi.Mode.rec Ethabi.padAddress._proof_1 Ethabi.deArr._sparseCasesOn_1 Ethabi.Token.zipCheck._f Ethabi.execute Ethabi.tokenize Ethabi.Contract.receive Ethabi.splitTag.match_3 Ethabi.Spec.mutabilityWord.match_1 Ethabi.U256 Ethabi.Json.ctorIdx Ethabi.Token.ctorIdx Ethabi.indexVec.match_1 Ethabi.JsonGrammar.HexDigit Ethabi.Contract.add.match_1 Ethabi.FieldSt Ethabi.TupleParam.name Ethabi.selectFunction.match_6 Ethabi.readPairs.match_1 Ethabi.strictFixedBytes Ethabi.Err.other Ethabi.Spec.CrashesParam.components Ethabi.logParams._f Ethabi.Operation.event Ethabi.Command.decodeLog Ethabi.Err.invalidData Ethabi.deParamFields._f Ethabi.JsonGrammar.Hex4 Ethabi.Function.constant Ethabi.encodeInputOf Ethabi.selectEvent.match_3 Ethabi.Spec.entriesOf Ethabi.ParamType.decEq.match_1 Ethabi.Spec.DenotesEach.nil Ethabi.Spec.WithMembers.tuple Ethabi.readComma Ethabi.fromUtf8Lossy._f Ethabi.readElementary Ethabi.Spec.CrashesOperation.function Ethabi.JsonGrammar.Value.array Ethabi.utf8Char Ethabi.typedLines.match_1 Ethabi.RawLog.topics Ethabi.Spec.CrashesEventParam Ethabi.ParamType.string.elim Ethabi.usizeAdd Ethabi.ParamType.fixedBytes.elim Ethabi.ReadSt.nested Ethabi.encodeTokens Ethabi.Mode.buffered Ethabi.deName Ethabi.Json.num Ethabi.takeBytes Ethabi.u32mul Ethabi.Event.paramsNames Ethabi.Spec.DefaultBool Ethabi.Err.invalidName Ethabi.ParamType.fixedArray Ethabi.readFuel Ethabi.deOperations Ethabi.logParams.match_1 Ethabi.required Ethabi.lenientUint.match_1 Ethabi.JsonGrammar.Value.false Ethabi.Operation.function Ethabi.decodeLoop.match_1 Ethabi.Res.bind Ethabi.Spec.DenotesMembers Ethabi.Param.internalType Ethabi.Mediate.tailLen Ethabi.ParamType.ctorElim Ethabi.Param Ethabi.Res Ethabi.Spec.DenotesOperation.functionArray Ethabi.Token.string Ethabi.machine Ethabi.Token.typeCheck._sparseCasesOn_16 Ethabi.setTupleComponents.match_1 Ethabi.Function.inputParamTypes Ethabi.Profile.casesOn Ethabi.Operation Ethabi.deVec.match_1 Ethabi.deFunctionSeq.match_3 Ethabi.JsonGrammar.Exponent Ethabi.Command.rec Ethabi.ParamType.tuple.elim Ethabi.Spec.WordJson Ethabi.Mediate.heads._f Ethabi.removeSpaces Ethabi.OpSt.constant Ethabi.FieldSt.kind Ethabi.Res.panic Ethabi.strSlice Ethabi.padAddress Ethabi.Mediate.below_1 Ethabi.ReadSt.lastItem Ethabi.strictString Ethabi.loadEvent Ethabi.ParamType.fixedBytes Ethabi.Token.int Ethabi.ParamType.int Ethabi.Profile.release Ethabi.Mediate Ethabi.Token.beqList._sparseCasesOn_2 Ethabi.JsonGrammar.Escaped.plain Ethabi.StateMutability.pure Ethabi.Token.isDynamic._f Ethabi.strictAddress Ethabi.Spec.CrashesAt Ethabi.Event.anonymous Ethabi.Mediate.sumHeadLen._f Ethabi.ParamType.below Ethabi.OpSt Ethabi.ParamType.tuple Ethabi.copyWord Ethabi.endOfSeq Ethabi.Token.zipCheck.match_1 Ethabi.JsonGrammar.Value.null Ethabi.JsonGrammar.BreaksOff Ethabi.Spec.OptionalString.match_1 Ethabi.readClose Ethabi.ParamType.decEqList.match_1 Ethabi.Spec.ArrayFine Ethabi.Token.tupleCheck.match_1 Ethabi.pieceLoop.match_1 Ethabi.Mediate.tail._f Ethabi.Token.bytes Ethabi.fromDecStr Ethabi.hexDigit Ethabi.JsonGrammar.Number.minus Ethabi.pushEntry._f Ethabi.Token.display._f Ethabi.strSlice.match_1 Ethabi.Token.display.match_1 Ethabi.LogParam.value Ethabi.Spec.WithMembers Ethabi.JsonGrammar.Value.true Ethabi.JsonGrammar.Chars Ethabi.Operation.receive Ethabi.Spec.CrashesOperation.eventArray Ethabi.splitAtByte Ethabi.deString Ethabi.Spec.DenotesParam Ethabi.Spec.WithMembers.fixedArray Ethabi.ParamType.fixedArray.noConfusion Ethabi.Token.typeCheck Ethabi.Token.typeCheck._sparseCasesOn_4 Ethabi.deStateMutability.match_1 Ethabi.deTupleFields.match_1 Ethabi.Spec.WordJson.object Ethabi.ParamType.bool Ethabi.selectEvent.match_1 Ethabi.ParamType.isDynamic._sparseCasesOn_1 Ethabi.Token.below_1 Ethabi.convertTopicParamType.match_1 Ethabi.innerTuple._sparseCasesOn_1 Ethabi.Err.utf8 Ethabi.ParamType.array Ethabi.Json.rec_2 Ethabi.strictInt Ethabi.ParamType.below_1 Ethabi.JsonGrammar.Number.plus Ethabi.readPairs._f Ethabi.FieldSt.name Ethabi.lenientUint Ethabi.fromUtf8Lossy.match_3 Ethabi.Spec.DenotesMembers.nil Ethabi.ParamType.brecOn Ethabi.extendInner._f Ethabi.Spec.mutabilityWord Ethabi.OpSt.stateMutability Ethabi.Function.outputs Ethabi.Spec.FunctionFine Ethabi.Mediate.headsZero._f Ethabi.ParamType.string Ethabi.Tokenizer.rec Ethabi.int256Max Ethabi.deEventOpFields._f Ethabi.digitsVal Ethabi.TupleParam Ethabi.encodeTokens.match_1 Ethabi.StateMutability Ethabi.JsonGrammar.Items Ethabi.Mediate.sumLen._f Ethabi.Log.mk Ethabi.Token.typeCheck.match_7 Ethabi.deComponents.match_1 Ethabi.Contract.fallback Ethabi.Function.outputParamTypes Ethabi.Contract.eventsByName.match_1 Ethabi.JsonGrammar.Value.noItems Ethabi.deVec Ethabi.ParamType.uint.elim Ethabi.Spec.CrashesParam.type Ethabi.deKind Ethabi.Spec.DenotesOperation.event Ethabi.second3 Ethabi.deString.match_1 Ethabi.Mediate.head Ethabi.readStep Ethabi.JsonGrammar.Escaped.short Ethabi.ReadSt.topOpen Ethabi.Token.typeCheck.match_10 Ethabi.Function.encodeInput Ethabi.deEvent Ethabi.deBool Ethabi.wordAddress._proof_1 Ethabi.RawLog.mk Ethabi.Spec.DenotesOperation.receive Ethabi.fromUtf8Lossy Ethabi.shortSignature Ethabi.Spec.CrashesOperation.functionArrayInputs Ethabi.Contract.functionsByName.match_1 Ethabi.Operation.rec Ethabi.Token.display Ethabi.Mediate.rawTuple Ethabi.deEventSeq.match_1 Ethabi.OpSt.anonymous Ethabi.getEntry Ethabi.decode Ethabi.deTupleFields._f Ethabi.Spec.CrashesOperation.functionArrayOutputs Ethabi.required.match_1 Ethabi.byteLen Ethabi.ParamType.fixedBytes.noConfusion Ethabi.JsonGrammar.Hex4.mk Ethabi.Mediate.brecOn_1.go Ethabi.Event.paramTypes Ethabi.Spec.DenotesOperation.receiveArray Ethabi.OpSt.eventInputs Ethabi.fromUtf8Lossy.match_1 Ethabi.encodeHeadTail Ethabi.Spec.CrashesOperation.constructorArray Ethabi.Event.mk Ethabi.decodeLoop.match_5 Ethabi.deBool.match_1 Ethabi.Err.parseInt Ethabi.FieldSt.components Ethabi.Spec.DenotesOperation.constructor Ethabi.hashSignature Ethabi.hexDecode._f Ethabi.Mediate.head.match_1 Ethabi.Spec.DenotesTail Ethabi.natText Ethabi.Function.mk Ethabi.Token.casesOn Ethabi.hexByte Ethabi.tokenize._f Ethabi.deConstructorSeq Ethabi.writeAll._f Ethabi.cliDecodeParams Ethabi.peek Ethabi.convertTopicParamType Ethabi.Res.casesOn Ethabi.FieldSt.indexed Ethabi.sanitizeName Ethabi.deTupleParam._f Ethabi.write Ethabi.Function.stateMutability Ethabi.strBytes Ethabi.Mediate.head._f Ethabi.JsonGrammar.Value.number Ethabi.Res.bind.match_1 Ethabi.Json.brecOn Ethabi.Contract.events Ethabi.padBytes Ethabi.tokenizeUint.match_1 Ethabi.Mediate.sumHeadLen.match_1 Ethabi.ParamType.decEq._f Ethabi.Mode.direct Ethabi.utf8CharWidth Ethabi.decodeParams.match_1 Ethabi.deStateMutability Ethabi.hexNat Ethabi.Spec.CrashesEventParam.type Ethabi.Spec.CrashesOperation.constructor Ethabi.Mediate.prefixedArray Ethabi.ParamType.address Ethabi.Mediate.brecOn Ethabi.JsonGrammar.Items.more Ethabi.Mediate.sumHeadLen Ethabi.deFunctionFields.match_1 Ethabi.EventParam.indexed Ethabi.Token.anyDynamic.match_1 Ethabi.JsonGrammar.Whole Ethabi.logParams Ethabi.Bytes Ethabi.pushEntry.match_1 Ethabi.finishTupleParam Ethabi.innerTuple._f Ethabi.padChunk Ethabi.extendInner Ethabi.innerTuple Ethabi.signatureName Ethabi.Token.brecOn Ethabi.encodeToken.match_1 Ethabi.Mode.casesOn Ethabi.Token.isDynamic.match_1 Ethabi.deConstructor Ethabi.splitAtByte.match_1 Ethabi.Spec.AroundTuple.array Ethabi.padFixedBytes Ethabi.nextElement Ethabi.Res.err Ethabi.Function.inputs Ethabi.parseHashes Ethabi.deStateMutability._sparseCasesOn_3 Ethabi.Operation.casesOn Ethabi.deTupleParam._sparseCasesOn_1 Ethabi.JsonGrammar.Blank Ethabi.JsonGrammar.Chars.nil Ethabi.Spec.DenotesName Ethabi.deConstructorFields Ethabi.Mediate.headLen.match_1 Ethabi.Command.encodeFunction Ethabi.Res.ok Ethabi.TupleParam.internalType Ethabi.ParamType.int.noConfusion Ethabi.Constructor.mk Ethabi.Spec.DenotesType Ethabi.strictBytes Ethabi.Spec.DenotesTail.none Ethabi.beBytes.match_1 Ethabi.join.match_1 Ethabi.Spec.DenotesOperation Ethabi.deOperation._sparseCasesOn_5 Ethabi.deTupleFields.match_3 Ethabi.mapIndex.match_1 Ethabi.deComponents._f Ethabi.byteLen.match_1 Ethabi.fromUtf8Lossy.match_5 Ethabi.U256.ofWord Ethabi.deFunction Ethabi.EventParam Ethabi.deStateMutability._sparseCasesOn_1 Ethabi.beNat Ethabi.Json.null Ethabi.readPairs._sparseCasesOn_1 Ethabi.selectFunction.match_3 Ethabi.Mediate.heads Ethabi.U256.toWord._proof_1 Ethabi.Token.brecOn_1.go Ethabi.deParam Ethabi.Function.name Ethabi.deKind.match_1 Ethabi.JsonGrammar.Value.object Ethabi.parseTokens Ethabi.Profile.debug Ethabi.Spec.ComponentsFine Ethabi.wordLow Ethabi.decodeParams Ethabi.deFunctionFields Ethabi.Spec.DenotesOperation.function Ethabi.Command.decodeParams Ethabi.selectEvent Ethabi.padU32 Ethabi.Mediate.raw Ethabi.asU32 Ethabi.Spec.Once Ethabi.Contract.functions Ethabi.Mediate.headsZero.match_1 Ethabi.JsonGrammar.Escaped Ethabi.Tokenizer.lenient Ethabi.Props.CrashesEarly Ethabi.Token.address Ethabi.StateMutability.casesOn Ethabi.Res.instMonad Ethabi.deEventFields Ethabi.Token.fixedBytes Ethabi.asBool Ethabi.execute.match_1 Ethabi.Token.allCheck.match_1 Ethabi.JsonGrammar.Value Ethabi.innerTuple.match_1 Ethabi.Spec.DenotesOperation.constructorArray Ethabi.ParamType.decEqList._f Ethabi.Spec.DenotesType.plain Ethabi.ParamType.usizeOkAll.match_1 Ethabi.Event.checkSignature Ethabi.pieceLoop Ethabi.Mediate.tails._f Ethabi.StateMutability.payable Ethabi.decodeLoop._f Ethabi.Spec.Absent Ethabi.Spec.DenotesTail.constant Ethabi.JsonGrammar.Value.noEntries Ethabi.ReadSt.subtypes Ethabi.deEventFields._f Ethabi.Mediate.prefixed Ethabi.selectFunction.match_1 Ethabi.ParamType.casesOn Ethabi.decodeLoop.match_3 Ethabi.padBool Ethabi.deFunctionSeq.match_7 Ethabi.ParamType.brecOn_1 Ethabi.readFuel._f Ethabi.JsonGrammar.Number Ethabi.deConstructorFields._f Ethabi.Mediate.assemble.match_1 Ethabi.Spec.EventParamFine Ethabi.Token.typeCheck._sparseCasesOn_7 Ethabi.Spec.DenotesEach.cons Ethabi.Spec.TypeFine Ethabi.beBytes._f Ethabi.JsonGrammar.Begun Ethabi.strictBool Ethabi.readLoop.match_1 Ethabi.ParamType.int.elim Ethabi.Token.typeCheck.match_19 Ethabi.ParamType.decEq.match_3 Ethabi.U256.toWord Ethabi.Command Ethabi.ParamType.fixedArray.elim Ethabi.tokenizeUint Ethabi.Contract.constructor Ethabi.decLoop._f Ethabi.hexDecode Ethabi.join._sparseCasesOn_1 Ethabi.tokenizers._f Ethabi.Mediate.rec Ethabi.Token.below Ethabi.Mediate.prefixedArrayWithLength Ethabi.ParamType Ethabi.Token.typeCheck.match_1 Ethabi.decodeLoop Ethabi.tokenizeStruct Ethabi.ParamType.array.elim Ethabi.splitTag._f Ethabi.JsonGrammar.Entries.one Ethabi.ParamType.ctorIdx Ethabi.Constructor Ethabi.Tokenizer Ethabi.join Ethabi.decLoop Ethabi.Spec.WordJson.string Ethabi.writeForAbi.match_1 Ethabi.indexSub Ethabi.Token Ethabi.beBytes Ethabi.Contract.eventsByName Ethabi.ParamType.noConfusionType Ethabi.isCont Ethabi.Token.rec Ethabi.encode Ethabi.Command.decodeFunction Ethabi.Json.below_3 Ethabi.convertTopicParamType._sparseCasesOn_1 Ethabi.parseHashes._f Ethabi.isDigit Ethabi.deStateMutability._sparseCasesOn_2 Ethabi.Command.encodeParams Ethabi.ParamType.brecOn.go Ethabi.deOperations._f Ethabi.Token.typeCheck._f Ethabi.parseUsize Ethabi.JsonGrammar.Value.string Ethabi.decLoop.match_1 Ethabi.TupleParam.kind Ethabi.readLoop Ethabi.tokenizePieces Ethabi.padBool._proof_1 Ethabi.LogParam.mk Ethabi.selectFunction._sparseCasesOn_3 Ethabi.Token.uint Ethabi.JsonGrammar.Fraction Ethabi.deOperation Ethabi.readAll Ethabi.ParamType.bytes Ethabi.JsonGrammar.Items.one Ethabi.Err Ethabi.Mediate.brecOn.go Ethabi.ParamType.isEmptyBytesValidEncoding.match_1 Ethabi.JsonGrammar.shorts Ethabi.Contract.mk Ethabi.ParamType.anyDynamic._f Ethabi.Tokenizer.casesOn Ethabi.readLoop._f Ethabi.splitTag Ethabi.hexVal Ethabi.slice Ethabi.hexDecode.match_1 Ethabi.Str Ethabi.writeForAbi._f Ethabi.ParamType.decEq Ethabi.EventParam.kind Ethabi.deOperation.match_5 Ethabi.deFunctionFields._f Ethabi.Token.rec_1 Ethabi.LogParam.name Ethabi.cliEncodeParams Ethabi.encodeTokens._f Ethabi.tokenizerOf Ethabi.Log.params Ethabi.Json.casesOn Ethabi.JsonGrammar.Text Ethabi.setTupleComponents Ethabi.Json.rec_3 Ethabi.Operation.constructor Ethabi.Spec.DenotesMutability Ethabi.readAll.match_1 Ethabi.flattenWords Ethabi.trailing._f Ethabi.tokenize.match_1 Ethabi.pieceLoop._f Ethabi.FieldSt.mk Ethabi.Json.brecOn.go Ethabi.signatureText Ethabi.Spec.AroundTuple.fixedArray Ethabi.Mediate.brecOn_1 Ethabi.ReadSt.subtuples Ethabi.Event.inputs Ethabi.deFunctionSeq Ethabi.JsonGrammar.Begun.cons Ethabi.Spec.WithMembers.array Ethabi.strictUint Ethabi.utf8 Ethabi.ReadSt.mk Ethabi.Contract Ethabi.writeForAbi Ethabi.Tokenizer.strict Ethabi.JsonGrammar.Entries.more Ethabi.ParamType.anyDynamic Ethabi.hexEncode Ethabi.decodeLogOf Ethabi.Json.rec_1 Ethabi.deEventOpFields Ethabi.wordAddress Ethabi.Event.indexedParams Ethabi.ParamType.brecOn_1.go Ethabi.deFunctionSeq.match_5 Ethabi.StateMutability.view Ethabi.OpSt.name Ethabi.Spec.CrashesOperation Ethabi.Json.below_2 Ethabi.Token.isDynamic._sparseCasesOn_1 Ethabi.ParamType.tuple.noConfusion Ethabi.Spec.EventFine Ethabi.ParamType.uint.noConfusion Ethabi.Token.brecOn.go Ethabi.fromUtf8Lossy.match_7 Ethabi.readAll._f Ethabi.join._f Ethabi.Token.typeCheck.match_4 Ethabi.readFuel.match_1 Ethabi.stripPlus._sparseCasesOn_1 Ethabi.Json Ethabi.Token.bool Ethabi.Spec.DenotesOperation.fallback Ethabi.deOperation.match_1 Ethabi.readOpen Ethabi.getEntry._f Ethabi.EventParam.mk Ethabi.deOperationSeq.match_1 Ethabi.Token.typeCheck._sparseCasesOn_13 Ethabi.Log Ethabi.deEventParam Ethabi.Token.fixedArray Ethabi.Mediate.tail.match_1 Ethabi.Mediate.assemble Ethabi.JsonGrammar.Chars.cons Ethabi.Spec.DenotesMembers.cons Ethabi.splitTag.match_1 Ethabi.ParamType.ctorElimType Ethabi.Spec.CrashesParam Ethabi.Word Ethabi.padChunk._proof_2 Ethabi.OpSt.inputs Ethabi.readPairs Ethabi.byteLen._f Ethabi.tokenizers.match_1 Ethabi.deBool._sparseCasesOn_1 Ethabi.OpSt.outputs Ethabi.deTupleParam.match_1 Ethabi.ParamType.isEmptyBytesValidEncoding._sparseCasesOn_1 Ethabi.Spec.DenotesOperation.fallbackArray Ethabi.Spec.OptionalString Ethabi.selectFunction Ethabi.deFunctionSeq.match_1 Ethabi.Event.name Ethabi.Mediate.casesOn Ethabi.deArr Ethabi.ParamType.bool.elim Ethabi.Spec.CutAtParen Ethabi.openAbi.match_1 Ethabi.deOperation.match_3 Ethabi.trailing Ethabi.hexDecode.match_4 Ethabi.emptyDataMsg Ethabi.trailing.match_1 Ethabi.Spec.DenotesMember.mk Ethabi.decodeParam._f Ethabi.Spec.DenotesType.unused Ethabi.Profile.rec Ethabi.tokenizeStruct.match_1 Ethabi.Err.serdeJson Ethabi.deTupleParams._f Ethabi.Token.brecOn_1
c93_determines Ethabi.Spec.Unopened.fixedArray Ethabi.Spec.AnyText.Understood.skip Ethabi.Spec.AnyText.closed.match_1 Ethabi.Spec.AnyText.nextText Ethabi.Err.hex Ethabi.Spec.Elementary.int Ethabi.Spec.AnyText.Text.elementary Ethabi.Spec.AnyText.Mark.char.match_1 Ethabi.ParamType.uint Ethabi.Spec.AnyText.RefusedAny.fixedArray Ethabi.Spec.AnyText.Stops.badMember Ethabi.Spec.AnyText.Stops.passed Ethabi.Spec.AnyText.upToMark._f Ethabi.Spec.Elementary Ethabi.Spec.AnyText.Understood.group Ethabi.Spec.TypeText.fixedArray Ethabi.Spec.AnyText.Cut.mk Ethabi.Spec.AnyText.Text.fixedArray Ethabi.Spec.AnyText.Stops.refused Ethabi.Spec.FlatText.array Ethabi.Spec.Elementary.address Ethabi.Spec.AnyText.Text.array Ethabi.Spec.AnyText.Stops.again Ethabi.Spec.TypeText.array Ethabi.Spec.AnyText.Understood.done Ethabi.Spec.AnyText.RefusedAny.notOpened Ethabi.Spec.AnyText.RefusedAny.array Ethabi.Spec.AnyText.Understood.keep Ethabi.Err.other Ethabi.Spec.AnyText.Understood.reopen Ethabi.Spec.Elementary.bytes Ethabi.Spec.AnyText.listText Ethabi.Err.invalidData Ethabi.Spec.AnyText.Understood.last Ethabi.Spec.AnyText.Stops Ethabi.Spec.Elementary.tuple Ethabi.Spec.AnyText.upToMark.match_1 Ethabi.Err.invalidName Ethabi.ParamType.fixedArray Ethabi.Spec.AnyText.Stops.last Ethabi.Spec.AnyText.RefusedAny.size Ethabi.Spec.AnyText.Mark.comma Ethabi.Spec.named Ethabi.Spec.Unopened.bare Ethabi.Res Ethabi.Spec.FlatUnopened Ethabi.Spec.AnyText.RefusedAny.tuple Ethabi.Res.panic Ethabi.Spec.AnyText.withoutNext Ethabi.Spec.Members.cons Ethabi.ParamType.fixedBytes Ethabi.ParamType.int Ethabi.Spec.AnyText.Cut.text Ethabi.ParamType.tuple Ethabi.Spec.Members.nil Ethabi.Spec.Elementary.intN Ethabi.Spec.TypeText.elementary Ethabi.Spec.AnyText.Stops.badLast Ethabi.Spec.AnyText.RefusedAny.width Ethabi.Spec.AnyText.Mark.casesOn Ethabi.Spec.AnyText.upToMark Ethabi.ParamType.bool Ethabi.Spec.AnyText.Understood.passed Ethabi.Err.utf8 Ethabi.ParamType.array Ethabi.Spec.AnyText.Stops.badGroup Ethabi.Spec.AnyText.RefusedAny Ethabi.Spec.AnyText.Spot.outside Ethabi.Spec.noSuffix Ethabi.ParamType.string Ethabi.Spec.AnyText.Stops.group Ethabi.Spec.Elementary.uint Ethabi.Spec.AnyText.behindMark Ethabi.Spec.FlatUnopened.tuple Ethabi.Spec.AnyText.behindMark._f Ethabi.Spec.AnyText.Text Ethabi.Spec.AnyText.Understood.deepGroup Ethabi.Spec.AnyText.RefusedAny.unopened Ethabi.Spec.AnyText.Place.inside Ethabi.Err.parseInt Ethabi.Spec.Elementary.bytesN Ethabi.Spec.AnyText.Understood Ethabi.Spec.AnyText.Stops.open Ethabi.Spec.AnyText.Mark Ethabi.ParamType.address Ethabi.Spec.AnyText.Place.reopened Ethabi.Spec.Unopened.array Ethabi.Spec.AnyText.Mark.closing Ethabi.Spec.AnyText.RefusedAny.name Ethabi.Res.err Ethabi.Spec.AnyText.Understood.again Ethabi.Spec.AnyText.Cut.rec Ethabi.Spec.FlatText.tuple Ethabi.Spec.FlatUnopened.bare Ethabi.Res.ok Ethabi.Spec.AnyText.Understood.member Ethabi.Spec.AnyText.Cut Ethabi.Spec.FlatUnopened.fixedArray Ethabi.Spec.AnyText.Mark.opening Ethabi.Spec.AnyText.Understood.badLast Ethabi.Spec.AnyText.Understood.close Ethabi.Spec.Members.skip Ethabi.Spec.AnyText.Spot.inside Ethabi.Spec.AnyText.Cut.mark Ethabi.Spec.FlatUnopened.array Ethabi.Spec.TypeText Ethabi.Spec.Unopened.number Ethabi.Spec.FlatText.elementary Ethabi.Spec.AnyText.Stops.reopen Ethabi.Spec.NoDelimiter Ethabi.Spec.AnyText.Understood.badMember Ethabi.Spec.AnyText.Spot Ethabi.Spec.AnyText.Text.tuple Ethabi.Spec.AnyText.Understood.badGroup Ethabi.Spec.numberText Ethabi.Spec.AnyText.closed Ethabi.Spec.Elementary.bool Ethabi.Spec.AnyText.Stops.comma Ethabi.Spec.AnyText.Fine Ethabi.ParamType Ethabi.Spec.AnyText.Place Ethabi.Spec.FlatText.fixedArray Ethabi.Spec.FlatText Ethabi.Spec.AnyText.Stops.tooMany Ethabi.Spec.Members Ethabi.Spec.numbered Ethabi.Spec.Elementary.uintN Ethabi.Spec.AnyText.Understood.open Ethabi.Spec.Unopened Ethabi.ParamType.bytes Ethabi.Err Ethabi.Spec.FlatUnopened.number Ethabi.Spec.AnyText.Proper Ethabi.Spec.AnyText.Place.outside Ethabi.Spec.notNumber Ethabi.Str Ethabi.Spec.AnyText.Stops.member Ethabi.Spec.AnyText.Cut.casesOn Ethabi.Spec.Elementary.string Ethabi.Spec.AnyText.Mark.rec Ethabi.Spec.AnyText.cutsText Ethabi.Spec.AnyText.nextText.match_1 Ethabi.Spec.AnyText.Stops.close Ethabi.Spec.commaSeparated Ethabi.Spec.AnyText.Spot.reopened Ethabi.Spec.AnyText.Mark.char Ethabi.Err.serdeJson
